import Verif.Spec.Doubles
import Mathlib.Algebra.Order.Field.Power
import Mathlib.Data.Real.Archimedean
import Mathlib.Algebra.Order.Round
import Mathlib.Data.Int.Log
import Mathlib.Tactic.Linarith
import Mathlib.Tactic.Positivity
import Mathlib.Tactic.Ring
import Mathlib.Tactic.NormNum

/-! Rounding to nearest (for C103-C105). -/

namespace Verif.Lemmas

open Verif.Spec

theorem double_zero : (0 : ℝ) ∈ Double := ⟨0, 0, by norm_num, by norm_num, by norm_num⟩

theorem double_neg {x : ℝ} (h : x ∈ Double) : -x ∈ Double := by
  obtain ⟨m, e, h1, h2, rfl⟩ := h
  exact ⟨-m, e, by rwa [abs_neg], h2, by push_cast; ring⟩

theorem double_int {m : ℤ} (h : |m| < 2 ^ 53) : (m : ℝ) ∈ Double := ⟨m, 0, h, by norm_num, by simp⟩

theorem double_nat {m : ℕ} (h : m < 2 ^ 53) : (m : ℝ) ∈ Double := by
  have := double_int (m := (m : ℤ)) (by rw [Nat.abs_cast]; exact_mod_cast h)
  simpa using this

/-- An integer of at most 53 bits (the next power of two included) times a power of two. -/
theorem double_le {m e : ℤ} (h : |m| ≤ 2 ^ 53) (he : -1074 ≤ e) : (m : ℝ) * (2 : ℝ) ^ e ∈ Double := by
  rcases h.lt_or_eq with h | h
  · exact ⟨m, e, h, he, rfl⟩
  · rcases abs_eq (by norm_num : (0 : ℤ) ≤ 2 ^ 53) |>.1 h with rfl | rfl
    · refine ⟨2 ^ 52, e + 1, by norm_num, by omega, ?_⟩
      rw [zpow_add₀ (by norm_num)]
      push_cast
      ring
    · refine ⟨-2 ^ 52, e + 1, by norm_num, by omega, ?_⟩
      rw [zpow_add₀ (by norm_num)]
      push_cast
      ring

/-- Every double is a multiple of the least one. -/
theorem double_multiple {x : ℝ} (h : x ∈ Double) : ∃ k : ℤ, x = k * (2 : ℝ) ^ (-1074 : ℤ) := by
  obtain ⟨m, e, -, h2, rfl⟩ := h
  refine ⟨m * 2 ^ (e + 1074).toNat, ?_⟩
  have : (2 : ℝ) ^ e = 2 ^ (e + 1074).toNat * 2 ^ (-1074 : ℤ) := by
    rw [← zpow_natCast, Int.toNat_of_nonneg (by omega), ← zpow_add₀ (by norm_num)]
    congr 1
    ring
  rw [this]
  push_cast
  ring

/-- The exponent of the last digit. -/
noncomputable def lastExp (x : ℝ) : ℤ := max (-1074) (Int.log 2 |x| - 52)

/-- Rounding to the last digit, ties upwards. -/
noncomputable def roundUp (x : ℝ) : ℝ := round (x / (2 : ℝ) ^ lastExp x) * (2 : ℝ) ^ lastExp x

theorem lastExp_upper (x : ℝ) : |x| < 2 ^ 53 * (2 : ℝ) ^ lastExp x := by
  have h1 := Int.lt_zpow_succ_log_self (b := 2) (by norm_num) |x|
  refine h1.trans_le ?_
  have : (2 : ℝ) ^ 53 * (2 : ℝ) ^ lastExp x = (2 : ℝ) ^ (53 + lastExp x) := by
    rw [zpow_add₀ (by norm_num)]
    norm_num
  rw [this]
  push_cast
  refine zpow_le_zpow_right₀ (by norm_num) ?_
  have := le_max_right (-1074) (Int.log 2 |x| - 52)
  rw [lastExp]
  omega

theorem lastExp_lower {x : ℝ} (h0 : x ≠ 0) (h : lastExp x ≠ -1074) : 2 ^ 52 * (2 : ℝ) ^ lastExp x ≤ |x| := by
  have he : lastExp x = Int.log 2 |x| - 52 := by
    rw [lastExp] at h ⊢
    rcases max_choice (-1074) (Int.log 2 |x| - 52) with h' | h'
    · exact absurd h' h
    · exact h'
  have hx : 0 < |x| := abs_pos.2 h0
  have h1 := Int.zpow_log_le_self (b := 2) (by norm_num) hx
  refine le_trans (le_of_eq ?_) h1
  rw [he]
  push_cast
  rw [show ((2 : ℝ) ^ 52) = (2 : ℝ) ^ (52 : ℤ) by norm_num, ← zpow_add₀ (by norm_num)]
  congr 1
  ring

theorem roundUp_mem (x : ℝ) : roundUp x ∈ Double := by
  refine double_le ?_ (le_max_left _ _)
  have hp : (0 : ℝ) < (2 : ℝ) ^ lastExp x := by positivity
  have h1 : |x / (2 : ℝ) ^ lastExp x| < 2 ^ 53 := by
    rw [abs_div, abs_of_pos hp, div_lt_iff₀ hp]
    exact lastExp_upper x
  have h2 := abs_sub_round (x / (2 : ℝ) ^ lastExp x)
  set r := round (x / (2 : ℝ) ^ lastExp x) with hr
  have h3 : |(r : ℝ)| < 2 ^ 53 + 1 := by
    calc |(r : ℝ)| ≤ |x / (2 : ℝ) ^ lastExp x| + |x / (2 : ℝ) ^ lastExp x - r| := by
          have := abs_sub_abs_le_abs_sub (r : ℝ) (x / (2 : ℝ) ^ lastExp x)
          rw [abs_sub_comm] at this
          linarith
      _ < 2 ^ 53 + 1 := by linarith
  have h4 : |r| < 2 ^ 53 + 1 := by
    have : ((|r| : ℤ) : ℝ) < ((2 ^ 53 + 1 : ℤ) : ℝ) := by push_cast; norm_num at h3 ⊢; exact h3
    exact_mod_cast this
  omega

theorem roundUp_near_multiple (x : ℝ) (k : ℤ) :
    |roundUp x - x| ≤ |(k : ℝ) * (2 : ℝ) ^ lastExp x - x| := by
  have hp : (0 : ℝ) < (2 : ℝ) ^ lastExp x := by positivity
  have h := round_le (x / (2 : ℝ) ^ lastExp x) k
  have e : ∀ t : ℝ, |t * (2 : ℝ) ^ lastExp x - x| =
      |x / (2 : ℝ) ^ lastExp x - t| * (2 : ℝ) ^ lastExp x := by
    intro t
    rw [abs_sub_comm, ← abs_of_pos hp, ← abs_mul, abs_of_pos hp, sub_mul, div_mul_cancel₀ _ hp.ne']
  rw [roundUp, e, e]
  exact mul_le_mul_of_nonneg_right h hp.le

theorem roundUp_error (x : ℝ) : |roundUp x - x| ≤ (2 : ℝ) ^ lastExp x / 2 := by
  have hp : (0 : ℝ) < (2 : ℝ) ^ lastExp x := by positivity
  have h := abs_sub_round (x / (2 : ℝ) ^ lastExp x)
  rw [roundUp, abs_sub_comm]
  have : x - round (x / (2 : ℝ) ^ lastExp x) * (2 : ℝ) ^ lastExp x =
      (x / (2 : ℝ) ^ lastExp x - round (x / (2 : ℝ) ^ lastExp x)) * (2 : ℝ) ^ lastExp x := by
    rw [sub_mul, div_mul_cancel₀ _ hp.ne']
  rw [this, abs_mul, abs_of_pos hp]
  calc _ ≤ 1 / 2 * (2 : ℝ) ^ lastExp x := mul_le_mul_of_nonneg_right h hp.le
    _ = _ := by ring

/-- Rounding to nearest exists. -/
theorem roundUp_nearest : Nearest roundUp := by
  refine ⟨roundUp_mem, fun x z hz => ?_⟩
  obtain ⟨m, e, hm, he, rfl⟩ := hz
  rcases le_or_gt (lastExp x) e with hle | hlt
  · have : (m : ℝ) * (2 : ℝ) ^ e = ((m * 2 ^ (e - lastExp x).toNat : ℤ) : ℝ) *
        (2 : ℝ) ^ lastExp x := by
      push_cast
      rw [mul_assoc, ← zpow_natCast, Int.toNat_of_nonneg (by omega), ← zpow_add₀ (by norm_num)]
      congr 2
      ring
    rw [this]
    exact roundUp_near_multiple x _
  · rcases eq_or_ne x 0 with rfl | h0
    · have : roundUp 0 = 0 := by simp [roundUp]
      rw [this, sub_self, abs_zero]
      exact abs_nonneg _
    have hne : lastExp x ≠ -1074 := by omega
    have h1 := lastExp_lower h0 hne
    have h2 : |(m : ℝ) * (2 : ℝ) ^ e| ≤ 2 ^ 52 * (2 : ℝ) ^ lastExp x := by
      have hpe : (0 : ℝ) < (2 : ℝ) ^ e := by positivity
      have hm' : |(m : ℝ)| ≤ 2 ^ 53 := by
        have : ((|m| : ℤ) : ℝ) < ((2 ^ 53 : ℤ) : ℝ) := by exact_mod_cast hm
        push_cast at this
        norm_num at this ⊢
        exact this.le
      rw [abs_mul, abs_of_pos hpe]
      calc |(m : ℝ)| * (2 : ℝ) ^ e ≤ 2 ^ 53 * (2 : ℝ) ^ e := mul_le_mul_of_nonneg_right hm' hpe.le
        _ = 2 ^ 52 * (2 : ℝ) ^ (e + 1) := by rw [zpow_add₀ (by norm_num)]; ring
        _ ≤ 2 ^ 52 * (2 : ℝ) ^ lastExp x := by
          refine mul_le_mul_of_nonneg_left ?_ (by positivity)
          exact zpow_le_zpow_right₀ (by norm_num) (by omega)
    rcases le_total 0 x with hx | hx
    · have h3 := roundUp_near_multiple x (2 ^ 52)
      rw [abs_of_nonneg hx] at h1
      have h4 := (abs_le.1 h2).2
      refine h3.trans ?_
      push_cast
      rw [abs_of_nonpos (by linarith), abs_of_nonpos (by linarith)]
      linarith
    · have h3 := roundUp_near_multiple x (-2 ^ 52)
      rw [abs_of_nonpos hx] at h1
      have h4 := (abs_le.1 h2).1
      refine h3.trans ?_
      push_cast
      rw [abs_of_nonneg (by linarith), abs_of_nonneg (by linarith)]
      linarith

variable {fl : ℝ → ℝ}

theorem fl_mono (h : Nearest fl) : Monotone fl := by
  intro x y hxy
  by_contra hc
  push Not at hc
  have h1 := h.near x _ (h.mem y)
  have h2 := h.near y _ (h.mem x)
  rcases eq_or_lt_of_le hxy with rfl | hlt
  · exact lt_irrefl _ hc
  · rw [abs_le_abs_iff_sq_le] at h1 h2
    nlinarith
  where abs_le_abs_iff_sq_le {a b : ℝ} : |a| ≤ |b| ↔ a ^ 2 ≤ b ^ 2 := sq_le_sq.symm

theorem fl_of_mem (h : Nearest fl) {x : ℝ} (hx : x ∈ Double) : fl x = x := by
  have := h.near x x hx
  rw [sub_self, abs_zero] at this
  exact sub_eq_zero.1 (abs_eq_zero.1 (le_antisymm this (abs_nonneg _)))

theorem fl_zero (h : Nearest fl) : fl 0 = 0 := fl_of_mem h double_zero

theorem fl_nonneg (h : Nearest fl) {x : ℝ} (hx : 0 ≤ x) : 0 ≤ fl x := by
  have := fl_mono h hx
  rwa [fl_zero h] at this

theorem fl_le_of_le (h : Nearest fl) {x y : ℝ} (hy : y ∈ Double) (hxy : x ≤ y) : fl x ≤ y := by
  have := fl_mono h hxy
  rwa [fl_of_mem h hy] at this

theorem le_fl_of_le (h : Nearest fl) {x y : ℝ} (hx : x ∈ Double) (hxy : x ≤ y) : x ≤ fl y := by
  have := fl_mono h hxy
  rwa [fl_of_mem h hx] at this

/-- The relative error of rounding, away from underflow. -/
theorem fl_rel (h : Nearest fl) {x : ℝ} (hx : (2 : ℝ) ^ (-1022 : ℤ) ≤ |x|) :
    |fl x - x| ≤ 1 / 2 ^ 53 * |x| := by
  refine (h.near x _ (roundUp_mem x)).trans ((roundUp_error x).trans ?_)
  by_cases he : lastExp x = -1074
  · rw [he]
    have : (2 : ℝ) ^ (-1022 : ℤ) = 2 ^ 52 * (2 : ℝ) ^ (-1074 : ℤ) := by
      rw [show ((2 : ℝ) ^ 52) = (2 : ℝ) ^ (52 : ℤ) by norm_num, ← zpow_add₀ (by norm_num)]
      norm_num
    rw [this] at hx
    nlinarith
  · have := lastExp_lower (abs_pos.1 (lt_of_lt_of_le (by positivity) hx)) he
    nlinarith

/-- The error of rounding in general. -/
theorem fl_error (h : Nearest fl) (x : ℝ) :
    |fl x - x| ≤ 1 / 2 ^ 53 * |x| + (2 : ℝ) ^ (-1075 : ℤ) := by
  have hp : (0 : ℝ) < (2 : ℝ) ^ (-1075 : ℤ) := by positivity
  rcases eq_or_ne x 0 with rfl | h0
  · rw [fl_zero h, sub_self, abs_zero]
    linarith
  rcases le_or_gt ((2 : ℝ) ^ (-1022 : ℤ)) |x| with hx | hx
  · linarith [fl_rel h hx]
  · refine (h.near x _ (roundUp_mem x)).trans ((roundUp_error x).trans ?_)
    have he : lastExp x = -1074 := by
      by_contra he
      have h1 := lastExp_lower h0 he
      have h2 : -1074 < lastExp x := lt_of_le_of_ne (le_max_left _ _) (Ne.symm he)
      have h3 : (2 : ℝ) ^ (-1073 : ℤ) ≤ (2 : ℝ) ^ lastExp x :=
        zpow_le_zpow_right₀ (by norm_num) (by omega)
      have h4 : (2 : ℝ) ^ (-1022 : ℤ) ≤ 2 ^ 52 * (2 : ℝ) ^ (-1073 : ℤ) := by
        rw [show ((2 : ℝ) ^ 52) = (2 : ℝ) ^ (52 : ℤ) by norm_num, ← zpow_add₀ (by norm_num)]
        exact zpow_le_zpow_right₀ (by norm_num) (by norm_num)
      nlinarith
    rw [he]
    have : (2 : ℝ) ^ (-1074 : ℤ) = 2 * (2 : ℝ) ^ (-1075 : ℤ) := by
      rw [show (-1074 : ℤ) = 1 + -1075 by norm_num, zpow_add₀ (by norm_num)]
      norm_num
    rw [this]
    have := abs_nonneg x
    nlinarith

/-- A difference of doubles is a double as soon as it is small. -/
theorem sub_small {x y : ℝ} (hx : x ∈ Double) (hy : y ∈ Double)
    (h : |x - y| ≤ 2 ^ 53 * (2 : ℝ) ^ (-1074 : ℤ)) : x - y ∈ Double := by
  obtain ⟨a, rfl⟩ := double_multiple hx
  obtain ⟨b, rfl⟩ := double_multiple hy
  have hp : (0 : ℝ) < (2 : ℝ) ^ (-1074 : ℤ) := by positivity
  have e : (a : ℝ) * (2 : ℝ) ^ (-1074 : ℤ) - b * (2 : ℝ) ^ (-1074 : ℤ) =
      ((a - b : ℤ) : ℝ) * (2 : ℝ) ^ (-1074 : ℤ) := by
    push_cast
    ring
  rw [e] at h ⊢
  refine double_le ?_ le_rfl
  rw [abs_mul, abs_of_pos hp] at h
  have := le_of_mul_le_mul_right h hp
  have h2 : ((|a - b| : ℤ) : ℝ) ≤ ((2 ^ 53 : ℤ) : ℝ) := by
    push_cast at this ⊢
    norm_num at this ⊢
    exact this
  exact_mod_cast h2

/-- Subtraction never underflows: the relative error is always small. -/
theorem fl_sub_rel (h : Nearest fl) {x y : ℝ} (hx : x ∈ Double) (hy : y ∈ Double) :
    |fl (x - y) - (x - y)| ≤ 1 / 2 ^ 53 * |x - y| := by
  rcases le_or_gt |x - y| (2 ^ 53 * (2 : ℝ) ^ (-1074 : ℤ)) with hs | hs
  · rw [fl_of_mem h (sub_small hx hy hs), sub_self, abs_zero]
    positivity
  · refine fl_rel h (le_trans ?_ hs.le)
    rw [show ((2 : ℝ) ^ 53) = (2 : ℝ) ^ (53 : ℤ) by norm_num, ← zpow_add₀ (by norm_num)]
    exact zpow_le_zpow_right₀ (by norm_num) (by norm_num)

theorem fl_sub_pos (h : Nearest fl) {x y : ℝ} (hx : x ∈ Double) (hy : y ∈ Double) (hxy : y < x) :
    0 < fl (x - y) := by
  have h1 := fl_sub_rel h hx hy
  have h2 : 0 < x - y := sub_pos.2 hxy
  rw [abs_of_pos h2] at h1
  have := (abs_le.1 h1).1
  nlinarith

theorem double_half {e : ℤ} (he : -1074 ≤ e) : (2 : ℝ) ^ e ∈ Double :=
  ⟨1, e, by norm_num, he, by simp⟩

/-- The greatest double below one. -/
theorem double_lt_one {u : ℝ} (hu : u ∈ Double) (h : u < 1) : u ≤ 1 - 1 / 2 ^ 53 := by
  obtain ⟨m, e, hm, -, rfl⟩ := hu
  have hm' : (m : ℝ) < 2 ^ 53 := by
    have : (m : ℝ) < ((2 ^ 53 : ℤ) : ℝ) := by exact_mod_cast (abs_lt.1 hm).2
    push_cast at this
    norm_num at this ⊢
    exact this
  rcases le_or_gt (-53) e with he | he
  · have e1 : (m : ℝ) * (2 : ℝ) ^ e = ((m * 2 ^ (e + 53).toNat : ℤ) : ℝ) * (2 : ℝ) ^ (-53 : ℤ) := by
      push_cast
      rw [mul_assoc, ← zpow_natCast, Int.toNat_of_nonneg (by omega), ← zpow_add₀ (by norm_num)]
      congr 2
      ring
    rw [e1] at h ⊢
    set k := m * 2 ^ (e + 53).toNat with hk
    have h2 : (2 : ℝ) ^ (-53 : ℤ) = 1 / 2 ^ 53 := by
      rw [zpow_neg, one_div]
      norm_num
    rw [h2] at h ⊢
    have h3 : (k : ℝ) < ((2 ^ 53 : ℤ) : ℝ) := by
      push_cast
      have : (k : ℝ) * (1 / 2 ^ 53) * 2 ^ 53 < 1 * 2 ^ 53 :=
        mul_lt_mul_of_pos_right h (by positivity)
      norm_num at this ⊢
      linarith
    have h4 : k ≤ 2 ^ 53 - 1 := by
      have : k < 2 ^ 53 := by exact_mod_cast h3
      omega
    have h5 : (k : ℝ) ≤ 2 ^ 53 - 1 := by
      have : (k : ℝ) ≤ ((2 ^ 53 - 1 : ℤ) : ℝ) := by exact_mod_cast h4
      push_cast at this
      norm_num at this ⊢
      exact this
    calc (k : ℝ) * (1 / 2 ^ 53) ≤ (2 ^ 53 - 1) * (1 / 2 ^ 53) :=
          mul_le_mul_of_nonneg_right h5 (by positivity)
      _ = 1 - 1 / 2 ^ 53 := by norm_num
  · have h1 : (2 : ℝ) ^ e ≤ (2 : ℝ) ^ (-54 : ℤ) := zpow_le_zpow_right₀ (by norm_num) (by omega)
    have h2 : (2 : ℝ) ^ (-54 : ℤ) = 1 / 2 ^ 54 := by
      rw [zpow_neg, one_div]
      norm_num
    have hp : (0 : ℝ) < (2 : ℝ) ^ e := by positivity
    calc (m : ℝ) * (2 : ℝ) ^ e ≤ 2 ^ 53 * (2 : ℝ) ^ e := mul_le_mul_of_nonneg_right hm'.le hp.le
      _ ≤ 2 ^ 53 * (1 / 2 ^ 54) := mul_le_mul_of_nonneg_left (h1.trans h2.le) (by positivity)
      _ ≤ 1 - 1 / 2 ^ 53 := by norm_num

/-- The least double above one. -/
theorem double_gt_one {u : ℝ} (hu : u ∈ Double) (h : 1 < u) : 1 + 1 / 2 ^ 52 ≤ u := by
  obtain ⟨m, e, hm, -, rfl⟩ := hu
  have hm' : (m : ℝ) < 2 ^ 53 := by
    have : (m : ℝ) < ((2 ^ 53 : ℤ) : ℝ) := by exact_mod_cast (abs_lt.1 hm).2
    push_cast at this
    norm_num at this ⊢
    exact this
  rcases le_or_gt (-52) e with he | he
  · have e1 : (m : ℝ) * (2 : ℝ) ^ e = ((m * 2 ^ (e + 52).toNat : ℤ) : ℝ) * (2 : ℝ) ^ (-52 : ℤ) := by
      push_cast
      rw [mul_assoc, ← zpow_natCast, Int.toNat_of_nonneg (by omega), ← zpow_add₀ (by norm_num)]
      congr 2
      ring
    rw [e1] at h ⊢
    set k := m * 2 ^ (e + 52).toNat with hk
    have h2 : (2 : ℝ) ^ (-52 : ℤ) = 1 / 2 ^ 52 := by
      rw [zpow_neg, one_div]
      norm_num
    rw [h2] at h ⊢
    have h3 : ((2 ^ 52 : ℤ) : ℝ) < k := by
      push_cast
      have : 1 * 2 ^ 52 < (k : ℝ) * (1 / 2 ^ 52) * 2 ^ 52 :=
        mul_lt_mul_of_pos_right h (by positivity)
      norm_num at this ⊢
      linarith
    have h4 : 2 ^ 52 + 1 ≤ k := by
      have : 2 ^ 52 < k := by exact_mod_cast h3
      omega
    have h5 : (2 ^ 52 + 1 : ℝ) ≤ k := by
      have : ((2 ^ 52 + 1 : ℤ) : ℝ) ≤ k := by exact_mod_cast h4
      push_cast at this
      norm_num at this ⊢
      exact this
    calc (1 + 1 / 2 ^ 52 : ℝ) = (2 ^ 52 + 1) * (1 / 2 ^ 52) := by norm_num
      _ ≤ (k : ℝ) * (1 / 2 ^ 52) := mul_le_mul_of_nonneg_right h5 (by positivity)
  · have h1 : (2 : ℝ) ^ e ≤ (2 : ℝ) ^ (-53 : ℤ) := zpow_le_zpow_right₀ (by norm_num) (by omega)
    have h2 : (2 : ℝ) ^ (-53 : ℤ) = 1 / 2 ^ 53 := by
      rw [zpow_neg, one_div]
      norm_num
    have hp : (0 : ℝ) < (2 : ℝ) ^ e := by positivity
    have h3 : (m : ℝ) * (2 : ℝ) ^ e ≤ 1 :=
      calc (m : ℝ) * (2 : ℝ) ^ e ≤ 2 ^ 53 * (2 : ℝ) ^ e := mul_le_mul_of_nonneg_right hm'.le hp.le
        _ ≤ 2 ^ 53 * (1 / 2 ^ 53) := mul_le_mul_of_nonneg_left (h1.trans h2.le) (by positivity)
        _ ≤ 1 := by norm_num
    linarith

/-- A double below `w`, closer than the relative distance `2^-52`. -/
theorem double_pred {w : ℝ} (hw : w ∈ Double) (h : 2 ^ 53 * (2 : ℝ) ^ (-1074 : ℤ) ≤ w) :
    ∃ p ∈ Double, p < w ∧ w - p < w / 2 ^ 52 := by
  have hw0 : 0 < w := lt_of_lt_of_le (by positivity) h
  have he : lastExp w ≠ -1074 := by
    intro he
    have := lastExp_upper w
    rw [he, abs_of_pos hw0] at this
    linarith
  have he' : -1074 < lastExp w := lt_of_le_of_ne (le_max_left _ _) (Ne.symm he)
  have hl := lastExp_lower hw0.ne' he
  have hu := lastExp_upper w
  rw [abs_of_pos hw0] at hl hu
  have hr := fl_of_mem roundUp_nearest hw
  rw [roundUp] at hr
  set E := lastExp w with hE
  set r := round (w / (2 : ℝ) ^ E) with hrd
  have hp : (0 : ℝ) < (2 : ℝ) ^ E := by positivity
  have h1 : (2 : ℝ) ^ 52 ≤ r := by
    rw [← hr] at hl
    exact le_of_mul_le_mul_right hl hp
  have h2 : (r : ℝ) < 2 ^ 53 := by
    rw [← hr] at hu
    exact lt_of_mul_lt_mul_right hu hp.le
  have h1' : (2 : ℤ) ^ 52 ≤ r := by
    have : (((2 : ℤ) ^ 52 : ℤ) : ℝ) ≤ r := by push_cast; norm_num at h1 ⊢; exact h1
    exact_mod_cast this
  have h2' : r < (2 : ℤ) ^ 53 := by
    have : (r : ℝ) < (((2 : ℤ) ^ 53 : ℤ) : ℝ) := by push_cast; norm_num at h2 ⊢; exact h2
    exact_mod_cast this
  rcases h1'.lt_or_eq with hlt | heq
  · refine ⟨((r - 1 : ℤ) : ℝ) * (2 : ℝ) ^ E, ⟨r - 1, E, ?_, he'.le, rfl⟩, ?_, ?_⟩
    · rw [abs_of_nonneg (by omega)]
      omega
    · rw [← hr]
      push_cast
      nlinarith
    · rw [← hr]
      push_cast
      have : (2 : ℝ) ^ 52 < r := by
        have : (((2 : ℤ) ^ 52 : ℤ) : ℝ) < r := by exact_mod_cast hlt
        push_cast at this
        norm_num at this ⊢
        exact this
      have e : (r : ℝ) * (2 : ℝ) ^ E - (r - 1) * (2 : ℝ) ^ E = (2 : ℝ) ^ E := by ring
      rw [e, lt_div_iff₀ (by positivity), mul_comm]
      exact mul_lt_mul_of_pos_right this hp
  · have hE1 : (2 : ℝ) ^ E = 2 * (2 : ℝ) ^ (E - 1) := by
      rw [show E = 1 + (E - 1) by ring, zpow_add₀ (by norm_num)]
      norm_num
    have hp1 : (0 : ℝ) < (2 : ℝ) ^ (E - 1) := by positivity
    have hr2 : (r : ℝ) = 2 ^ 52 := by
      rw [← heq]
      norm_num
    refine ⟨((2 ^ 53 - 1 : ℤ) : ℝ) * (2 : ℝ) ^ (E - 1), ⟨2 ^ 53 - 1, E - 1, by norm_num, by omega, rfl⟩,
      ?_, ?_⟩
    · rw [← hr, hr2, hE1]
      push_cast
      norm_num
      nlinarith
    · rw [← hr, hr2, hE1]
      push_cast
      norm_num
      nlinarith

/-- The width of an interval, rounded, times a double below one, rounded, is at most the exact
width. -/
theorem fl_scale_le (h : Nearest fl) {lo hi u : ℝ} (hlo : lo ∈ Double) (hhi : hi ∈ Double)
    (hle : lo ≤ hi) (hu : u ∈ Double) (h1 : u < 1) : fl (u * fl (hi - lo)) ≤ hi - lo := by
  set D := hi - lo with hD
  have hD0 : 0 ≤ D := sub_nonneg.2 hle
  have hu1 := double_lt_one hu h1
  set w := fl D with hw
  have hw0 : 0 ≤ w := fl_nonneg h hD0
  by_contra hc
  push Not at hc
  have h2 : fl (u * w) ≤ w := fl_le_of_le h (h.mem _) (mul_le_of_le_one_left hw0 h1.le)
  have h3 := h.near D _ (h.mem (u * w))
  rw [← hw, abs_of_nonneg (by linarith), abs_of_nonneg (by linarith)] at h3
  have hv : fl (u * w) = w := le_antisymm h2 (by linarith)
  rw [hv] at hc
  have hnd : D ∉ Double := fun hd => by
    rw [hw, fl_of_mem h hd] at hc
    exact lt_irrefl _ hc
  have hbig : 2 ^ 53 * (2 : ℝ) ^ (-1074 : ℤ) < D := by
    by_contra hs
    push Not at hs
    exact hnd (sub_small hhi hlo (by rwa [← hD, abs_of_nonneg hD0]))
  obtain ⟨p, hp, hpw, hpd⟩ := double_pred (h.mem D) (hbig.le.trans hc.le)
  rw [← hw] at hpw hpd
  have h4 := h.near (u * w) p hp
  rw [hv] at h4
  have hwp : 0 < w := lt_of_le_of_lt hD0 hc
  have h5 : w / 2 ^ 53 ≤ w - u * w := by
    have : u * w ≤ (1 - 1 / 2 ^ 53) * w := mul_le_mul_of_nonneg_right hu1 hw0
    linarith
  have h6 : 0 < w / 2 ^ 53 := by positivity
  rw [abs_of_nonneg (by linarith)] at h4
  rcases le_total (u * w) p with hup | hup
  · rw [abs_of_nonneg (by linarith)] at h4
    linarith
  · rw [abs_of_nonpos (by linarith)] at h4
    have : w / 2 ^ 52 = 2 * (w / 2 ^ 53) := by ring
    linarith

end Verif.Lemmas
