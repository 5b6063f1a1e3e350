import Verif.Model.Basic
import Mathlib.Tactic.Linarith

/-! Facts about the extended floats and the numpy reductions. -/

namespace Verif

namespace Flt

@[simp] theorem not_nan_lt (a : Flt) : ¬ (nan < a) := by
  intro h; cases a <;> exact h
@[simp] theorem not_lt_nan (a : Flt) : ¬ (a < nan) := by
  intro h; cases a <;> exact h
@[simp] theorem not_nan_le (a : Flt) : ¬ (nan ≤ a) := by
  intro h; cases a <;> exact h
@[simp] theorem not_le_nan (a : Flt) : ¬ (a ≤ nan) := by
  intro h; cases a <;> exact h
@[simp] theorem fin_lt_fin (x y : ℝ) : (fin x < fin y) ↔ x < y := Iff.rfl
@[simp] theorem fin_le_fin (x y : ℝ) : (fin x ≤ fin y) ↔ x ≤ y := Iff.rfl
@[simp] theorem fin_lt_pinf (x : ℝ) : fin x < pinf := trivial
@[simp] theorem ninf_lt_pinf : ninf < pinf := trivial
@[simp] theorem ninf_lt_fin (x : ℝ) : ninf < fin x := trivial
@[simp] theorem not_fin_lt_ninf (x : ℝ) : ¬ (fin x < ninf) := fun h => h
@[simp] theorem not_pinf_lt (a : Flt) : ¬ (pinf < a) := by
  intro h; cases a <;> exact h
@[simp] theorem not_lt_ninf (a : Flt) : ¬ (a < ninf) := by
  intro h; cases a <;> exact h
@[simp] theorem fin_le_pinf (x : ℝ) : fin x ≤ pinf := trivial
@[simp] theorem pinf_le_pinf : pinf ≤ pinf := trivial
@[simp] theorem ninf_le_pinf : ninf ≤ pinf := trivial
@[simp] theorem ninf_le_fin (x : ℝ) : ninf ≤ fin x := trivial
@[simp] theorem ninf_le_ninf : ninf ≤ ninf := trivial
@[simp] theorem not_fin_le_ninf (x : ℝ) : ¬ (fin x ≤ ninf) := fun h => h
@[simp] theorem not_pinf_le_fin (x : ℝ) : ¬ (pinf ≤ fin x) := fun h => h
@[simp] theorem not_pinf_le_ninf : ¬ (pinf ≤ ninf) := fun h => h

theorem lt_trans {a b c : Flt} (h : a < b) (h' : b < c) : a < c := by
  cases a <;> cases b <;> cases c <;> simp_all
  linarith

theorem le_of_lt {a b : Flt} (h : a < b) : a ≤ b := by
  cases a <;> cases b <;> simp_all
  linarith

theorem lt_of_lt_of_le {a b c : Flt} (h : a < b) (h' : b ≤ c) : a < c := by
  cases a <;> cases b <;> cases c <;> simp_all
  linarith

theorem lt_of_le_of_lt {a b c : Flt} (h : a ≤ b) (h' : b < c) : a < c := by
  cases a <;> cases b <;> cases c <;> simp_all
  linarith

theorem le_trans {a b c : Flt} (h : a ≤ b) (h' : b ≤ c) : a ≤ c := by
  cases a <;> cases b <;> cases c <;> simp_all
  linarith

theorem le_refl {a : Flt} (h : a ≠ nan) : a ≤ a := by
  cases a <;> simp_all

theorem not_lt_self (a : Flt) : ¬ a < a := by
  cases a <;> simp

theorem le_of_not_lt {a b : Flt} (ha : a ≠ nan) (hb : b ≠ nan) (h : ¬ a < b) : b ≤ a := by
  cases a <;> cases b <;> simp_all

theorem not_lt_of_le {a b : Flt} (h : a ≤ b) : ¬ b < a := by
  cases a <;> cases b <;> simp_all

theorem le_antisymm {a b : Flt} (h : a ≤ b) (h' : b ≤ a) : a = b := by
  cases a <;> cases b <;> simp_all
  linarith

theorem ne_nan_of_lt {a b : Flt} (h : a < b) : a ≠ nan := by
  rintro rfl; simp at h

theorem ne_nan_of_lt' {a b : Flt} (h : a < b) : b ≠ nan := by
  rintro rfl; simp at h

theorem lt_pinf_iff {a : Flt} : a < pinf ↔ a ≠ nan ∧ a ≠ pinf := by
  cases a <;> simp

end Flt

theorem foldl_max_mem (l : List ℝ) (a : ℝ) :
    l.foldl max a ∈ a :: l ∧ ∀ y ∈ a :: l, y ≤ l.foldl max a := by
  induction l generalizing a with
  | nil => simp
  | cons b t ih =>
    obtain ⟨h1, h2⟩ := ih (max a b)
    simp only [List.foldl_cons]
    constructor
    · rcases List.mem_cons.1 h1 with h | h
      · rcases max_choice a b with h' | h' <;> rw [h, h'] <;> simp
      · simp [h]
    · intro y hy
      have hm := h2 (max a b) (by simp)
      simp only [List.mem_cons] at hy
      rcases hy with rfl | rfl | hy
      · exact (le_max_left _ _).trans hm
      · exact (le_max_right _ _).trans hm
      · exact h2 y (by simp [hy])

theorem foldl_min_mem (l : List ℝ) (a : ℝ) :
    l.foldl min a ∈ a :: l ∧ ∀ y ∈ a :: l, l.foldl min a ≤ y := by
  induction l generalizing a with
  | nil => simp
  | cons b t ih =>
    obtain ⟨h1, h2⟩ := ih (min a b)
    simp only [List.foldl_cons]
    constructor
    · rcases List.mem_cons.1 h1 with h | h
      · rcases min_choice a b with h' | h' <;> rw [h, h'] <;> simp
      · simp [h]
    · intro y hy
      have hm := h2 (min a b) (by simp)
      simp only [List.mem_cons] at hy
      rcases hy with rfl | rfl | hy
      · exact hm.trans (min_le_left _ _)
      · exact hm.trans (min_le_right _ _)
      · exact h2 y (by simp [hy])

theorem npMax_ok {l : List ℝ} {m : ℝ} :
    npMax l = .ok m ↔ m ∈ l ∧ ∀ y ∈ l, y ≤ m := by
  cases l with
  | nil => simp [npMax]
  | cons a t =>
    have h := foldl_max_mem t a
    simp only [npMax, Except.ok.injEq]
    constructor
    · rintro rfl; exact h
    · rintro ⟨h1, h2⟩
      exact le_antisymm (h2 _ h.1) (h.2 _ h1)

theorem npMin_ok {l : List ℝ} {m : ℝ} :
    npMin l = .ok m ↔ m ∈ l ∧ ∀ y ∈ l, m ≤ y := by
  cases l with
  | nil => simp [npMin]
  | cons a t =>
    have h := foldl_min_mem t a
    simp only [npMin, Except.ok.injEq]
    constructor
    · rintro rfl; exact h
    · rintro ⟨h1, h2⟩
      exact le_antisymm (h.2 _ h1) (h2 _ h.1)

theorem npMax_exists {l : List ℝ} (h : l ≠ []) : ∃ m, npMax l = .ok m := by
  cases l with
  | nil => simp at h
  | cons a t => exact ⟨_, rfl⟩

theorem npMin_exists {l : List ℝ} (h : l ≠ []) : ∃ m, npMin l = .ok m := by
  cases l with
  | nil => simp at h
  | cons a t => exact ⟨_, rfl⟩

end Verif
