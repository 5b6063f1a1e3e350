import Verif.Spec.Curves
import Verif.Model.UtilsCommon
import Verif.Lemmas.Flt

/-! Running minima and running sums. -/

namespace Verif

open Verif.Spec Verif.UtilsCommon

theorem accMin_append (b : Flt) (l₁ l₂ : List Flt) :
    accMin b (l₁ ++ l₂) = accMin (accMin b l₁) l₂ := by
  simp [accMin, List.foldl_append]

theorem length_runMin (b : Flt) (l : List Flt) : (runMin b l).length = l.length := by
  induction l generalizing b with
  | nil => rfl
  | cons y t ih => simp [runMin, ih]

theorem runMin_getElem? (b : Flt) (l : List Flt) (k : ℕ) (hk : k < l.length) :
    (runMin b l)[k]? = some (accMin b (l.take (k + 1))) := by
  induction l generalizing b k with
  | nil => simp at hk
  | cons y t ih =>
    cases k with
    | zero => simp [runMin, accMin]
    | succ k =>
      simp only [runMin, List.getElem?_cons_succ]
      rw [ih _ _ (by simpa using hk)]
      simp [accMin]

theorem accMin_best (l : List Flt) : BestSoFar l (accMin Flt.pinf l) := by
  induction l using List.reverseRecOn with
  | nil => simp [accMin, BestSoFar]
  | append_singleton l y ih =>
    rw [accMin_append]
    obtain ⟨h1, h2, h3⟩ := ih
    simp only [accMin, List.foldl_cons, List.foldl_nil, pyMin]
    simp only [accMin] at h1 h2 h3
    split_ifs with hy
    · refine ⟨Flt.ne_nan_of_lt hy, ?_, by simp⟩
      intro z hz
      rcases List.mem_append.1 hz with hz | hz
      · rcases h2 z hz with h | h
        · exact Or.inl h
        · exact Or.inr (Flt.le_of_lt (Flt.lt_of_lt_of_le hy h))
      · simp only [List.mem_singleton] at hz
        rw [hz]; exact Or.inr (Flt.le_refl (Flt.ne_nan_of_lt hy))
    · refine ⟨h1, ?_, ?_⟩
      · intro z hz
        rcases List.mem_append.1 hz with hz | hz
        · exact h2 z hz
        · simp only [List.mem_singleton] at hz
          subst hz
          by_cases hn : z = Flt.nan
          · exact Or.inl hn
          · exact Or.inr (Flt.le_of_not_lt hn h1 hy)
      · rcases h3 with h | h
        · left; simp [h]
        · right; exact h

theorem BestSoFar.unique {l : List Flt} {m m' : Flt} (h : BestSoFar l m) (h' : BestSoFar l m') :
    m = m' := by
  obtain ⟨h1, h2, h3⟩ := h
  obtain ⟨g1, g2, g3⟩ := h'
  have key : ∀ {a b : Flt}, a ≠ Flt.nan → b ≠ Flt.nan → (∀ y ∈ l, y = Flt.nan ∨ a ≤ y) →
      (b ∈ l ∨ b = Flt.pinf) → a ≤ b := by
    intro a b ha hb hall hbm
    rcases hbm with hbm | rfl
    · rcases hall b hbm with h | h
      · exact absurd h hb
      · exact h
    · cases a <;> simp_all
  exact Flt.le_antisymm (key h1 g1 h2 g3) (key g1 h1 g2 h3)

theorem minimaRow_length (row : List Flt) (s : ℤ) :
    (minimaRow row s).length = row.length - sliceBound row.length s + 1 := by
  simp [minimaRow, length_runMin, sliceFrom]

theorem minimaRow_getElem? (row : List Flt) (s : ℤ) (k : ℕ)
    (hk : k < row.length - sliceBound row.length s + 1) :
    (minimaRow row s)[k]? = some (accMin Flt.pinf (row.take (sliceBound row.length s + k))) := by
  cases k with
  | zero => simp [minimaRow, sliceTo]
  | succ k =>
    simp only [minimaRow, List.getElem?_cons_succ]
    rw [runMin_getElem? _ _ _ (by simp only [sliceFrom, List.length_drop]; omega),
      ← accMin_append, sliceTo, sliceFrom, ← List.take_add]

theorem sumF_append (l : List Flt) (a : Flt) : sumF (l ++ [a]) = (sumF l).add a := by
  simp [sumF]

theorem sumF_fin (l : List ℝ) : sumF (l.map Flt.fin) = Flt.fin l.sum := by
  induction l using List.reverseRecOn with
  | nil => simp [sumF]
  | append_singleton l a ih =>
    rw [List.map_append, List.map_cons, List.map_nil, sumF_append, ih]
    simp [Flt.add]

theorem meanF_fin (l : List ℝ) : meanF (l.map Flt.fin) = Flt.fin (l.sum / l.length) := by
  simp [meanF, sumF_fin, Flt.divPos]

theorem stdF_fin (l : List ℝ) (h : 2 ≤ l.length) : stdF (l.map Flt.fin) =
    Flt.fin (Real.sqrt ((l.map (fun x => (x - l.sum / l.length) ^ 2)).sum / ((l.length : ℝ) - 1))) := by
  have h1 : (l.map Flt.fin).map (fun x => (x.sub (meanF (l.map Flt.fin))).sq) =
      (l.map (fun x => (x - l.sum / l.length) ^ 2)).map Flt.fin := by
    rw [meanF_fin, List.map_map, List.map_map]
    apply List.map_congr_left
    intro x _
    simp only [Function.comp, Flt.sub, Flt.neg, Flt.add, Flt.sq, Flt.fin.injEq]
    ring
  unfold stdF
  rw [h1, sumF_fin]
  simp only [Flt.divPos, List.length_map, Flt.sqrt]
  rw [if_neg]
  push Not
  apply div_nonneg
  · apply List.sum_nonneg
    intro x hx
    obtain ⟨y, _, rfl⟩ := List.mem_map.1 hx
    positivity
  · have : (2 : ℝ) ≤ l.length := by exact_mod_cast h
    linarith

theorem column_map_fin (rows : List (List ℝ)) (j : ℕ) :
    column (rows.map (List.map Flt.fin)) j = (column rows j).map Flt.fin := by
  simp only [column, List.filterMap_map, List.map_filterMap]
  apply List.filterMap_congr
  intro r _
  simp

theorem length_column {α : Type _} (rows : List (List α)) (j : ℕ)
    (h : ∀ r ∈ rows, j < r.length) : (column rows j).length = rows.length := by
  induction rows with
  | nil => rfl
  | cons r t ih =>
    have hr := h r (by simp)
    have ht := ih (fun s hs => h s (by simp [hs]))
    simp only [column, List.filterMap_cons, List.getElem?_eq_getElem hr, List.length_cons] at ht ⊢
    omega

theorem column_eq_map {α : Type _} (rows : List (List α)) (j : ℕ) (g : List α → α)
    (h : ∀ r ∈ rows, r[j]? = some (g r)) : column rows j = rows.map g := by
  induction rows with
  | nil => rfl
  | cons r t ih =>
    have hr := h r (by simp)
    have ht := ih (fun s hs => h s (by simp [hs]))
    simp only [column, List.filterMap_cons, hr, List.map_cons] at ht ⊢
    rw [ht]

theorem length_cumsum (s : ℝ) (l : List ℝ) : (cumsum s l).length = l.length := by
  induction l generalizing s with
  | nil => rfl
  | cons x t ih => simp [cumsum, ih]

theorem cumsum_getElem? (s : ℝ) (l : List ℝ) (k : ℕ) (hk : k < l.length) :
    (cumsum s l)[k]? = some (s + (l.take (k + 1)).sum) := by
  induction l generalizing s k with
  | nil => simp at hk
  | cons x t ih =>
    cases k with
    | zero => simp [cumsum]
    | succ k =>
      simp only [cumsum, List.getElem?_cons_succ]
      rw [ih _ _ (by simpa using hk)]
      simp [add_assoc]

theorem timeRow_getElem? (l : List ℝ) (s : ℤ) (inc : Bool) (k : ℕ)
    (hk : k ≤ (if inc then sliceFrom l s else l).length) :
    (timeRow l s inc)[k]? = some (((if inc then sliceFrom l s else l).take k).sum) := by
  cases k with
  | zero => simp [timeRow]
  | succ k =>
    simp only [timeRow, List.singleton_append, List.getElem?_cons_succ]
    rw [cumsum_getElem? _ _ _ (by omega)]
    simp

end Verif
