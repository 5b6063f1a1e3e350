import Verif.Model.UtilsCommon
import Mathlib.Data.List.Nodup
import Mathlib.Tactic.FieldSimp
import Mathlib.Tactic.NormNum
import Mathlib.Tactic.Linarith

/-! # C15: grids -/

namespace Verif.Props

open Verif.UtilsCommon

/-- Specification of one axis: the `i`-th of `n` evenly spaced values from `r.1` to `r.2`
(both ends included when `n >= 2`). -/
noncomputable def axisNode (n : ℕ) (r : ℝ × ℝ) (i : ℕ) : ℝ :=
  r.1 + (i : ℝ) * (r.2 - r.1) / ((n : ℝ) - 1)

theorem linspaceNat_eq (a b : ℝ) (n : ℕ) :
    linspaceNat a b n = (List.range n).map (axisNode n (a, b)) := by
  match n with
  | 0 => rfl
  | 1 => simp [linspaceNat, axisNode]
  | (n + 2) =>
    have hne : ((n : ℝ) + 1) ≠ 0 := by positivity
    rw [List.range_succ (n := n + 1), List.map_append]
    simp only [linspaceNat, List.map_cons, List.map_nil]
    congr 1
    · apply List.map_congr_left
      intro i _
      simp only [axisNode]; push_cast
      rw [show ((n : ℝ) + 2 - 1) = n + 1 by ring]
      ring
    · simp only [axisNode]; push_cast
      rw [show ((n : ℝ) + 2 - 1) = n + 1 by ring, mul_div_assoc, mul_div_cancel₀ _ hne]
      ring_nf

theorem cart_length {α : Type _} (ls : List (List α)) :
    (cart ls).length = (ls.map List.length).prod := by
  induction ls with
  | nil => rfl
  | cons v rest ih => simp [cart, List.length_flatMap, ih]

theorem mem_cart {α : Type _} (ls : List (List α)) (p : List α) :
    p ∈ cart ls ↔ List.Forall₂ (fun x l => x ∈ l) p ls := by
  induction ls generalizing p with
  | nil => simp [cart]
  | cons v rest ih =>
    simp only [cart, List.mem_flatMap, List.mem_map]
    constructor
    · rintro ⟨x, hx, q, hq, rfl⟩
      exact List.Forall₂.cons hx ((ih q).1 hq)
    · intro h
      cases h with
      | cons hx hq => exact ⟨_, hx, _, (ih _).2 hq, rfl⟩

theorem cart_nodup {α : Type _} (ls : List (List α)) (h : ∀ l ∈ ls, l.Nodup) :
    (cart ls).Nodup := by
  induction ls with
  | nil => simp [cart]
  | cons v rest ih =>
    simp only [cart]
    rw [List.nodup_flatMap]
    refine ⟨?_, ?_⟩
    · intro x _
      exact (ih (fun l hl => h l (by simp [hl]))).map (fun a b hab => (List.cons.inj hab).2)
    · have hv := h v (by simp)
      refine List.Pairwise.imp ?_ hv
      intro a b hab p hp hq
      obtain ⟨q, _, rfl⟩ := List.mem_map.1 hp
      obtain ⟨q', _, h'⟩ := List.mem_map.1 hq
      exact hab (List.cons.inj h').1.symm

theorem cart_zipWith {α β γ : Type _} (f : α → β → γ) (rs : List α) (ls : List (List β))
    (h : rs.length = ls.length) :
    cart (List.zipWith (fun r l => l.map (f r)) rs ls) = (cart ls).map (List.zipWith f rs) := by
  induction rs generalizing ls with
  | nil => cases ls with
    | nil => simp [cart]
    | cons => simp at h
  | cons r rs ih => cases ls with
    | nil => simp at h
    | cons l ls =>
      simp only [List.zipWith_cons_cons, cart, ih ls (by simpa using h)]
      simp only [List.flatMap_map, List.map_flatMap, List.map_map]
      rfl

theorem swap01_swap01 {α : Type _} (l : List α) : swap01 (swap01 l) = l := by
  match l with
  | [] => rfl
  | [_] => rfl
  | _ :: _ :: _ => rfl

theorem mapM_linspace (rs : List (ℝ × ℝ)) (n : ℕ) :
    rs.mapM (fun r => linspace r.1 r.2 (n : ℤ)) = .ok (rs.map (fun r => linspaceNat r.1 r.2 n)) := by
  induction rs with
  | nil => rfl
  | cons r rs ih =>
    have h0 : linspace r.1 r.2 (n : ℤ) = .ok (linspaceNat r.1 r.2 n) := by
      simp [linspace, show ¬ ((n : ℤ) < 0) by omega]
    rw [List.mapM_cons, ih, h0]
    rfl

theorem forall₂_replicate {α : Type _} (n : ℕ) (v p : List α) :
    List.Forall₂ (fun x l => x ∈ l) p (List.replicate n v) ↔
      p.length = n ∧ ∀ x ∈ p, x ∈ v := by
  induction n generalizing p with
  | zero => cases p <;> simp
  | succ n ih =>
    cases p with
    | nil => simp [List.replicate_succ]
    | cons x t => simp [List.replicate_succ, ih]; tauto

/-- C15. For at least one axis with ordered ends and `n >= 0` values per axis the grid lists
every combination of one value per axis exactly once: its rows are indexed by a
duplicate-free enumeration of all index vectors. -/
theorem C15_grid (ranges : List (ℝ × ℝ)) (n : ℕ) (hne : ranges ≠ [])
    (hord : ∀ r ∈ ranges, r.1 ≤ r.2) :
    ∃ rows, getGrids ranges n = .ok rows ∧ rows.length = n ^ ranges.length ∧
      ∃ idx : List (List ℕ), idx.Nodup ∧
        (∀ p, p ∈ idx ↔ p.length = ranges.length ∧ ∀ i ∈ p, i < n) ∧
        rows = idx.map (List.zipWith (axisNode n) ranges) := by
  have hax : ∀ rs : List (ℝ × ℝ), rs.map (fun r => linspaceNat r.1 r.2 n) =
      List.zipWith (fun r l => l.map (axisNode n r)) rs
        (List.replicate rs.length (List.range n)) := by
    intro rs
    induction rs with
    | nil => rfl
    | cons r rs ih =>
      rw [List.map_cons, List.length_cons, List.replicate_succ, List.zipWith_cons_cons, ih,
        linspaceNat_eq]
  have hstart : getGrids ranges n = meshgridRows (ranges.map (fun r => linspaceNat r.1 r.2 n)) := by
    unfold getGrids
    rw [mapM_linspace]
    simp only [pyAssert, bind, Except.bind]
    rw [if_pos hord]
  have hlen : ∀ p ∈ cart (List.replicate ranges.length (List.range n)),
      p.length = ranges.length := by
    intro p hp
    rw [mem_cart, forall₂_replicate] at hp
    exact hp.1
  have hnodup : (cart (List.replicate ranges.length (List.range n))).Nodup := by
    apply cart_nodup
    intro l hl
    rw [(List.mem_replicate.1 hl).2]
    exact List.nodup_range
  have hcard : (cart (List.replicate ranges.length (List.range n))).length =
      n ^ ranges.length := by
    rw [cart_length]; simp
  have hmem : ∀ p, p ∈ cart (List.replicate ranges.length (List.range n)) ↔
      p.length = ranges.length ∧ ∀ i ∈ p, i < n := by
    intro p
    rw [mem_cart, forall₂_replicate]
    simp
  match ranges, hne, hord, hax, hstart, hlen, hnodup, hcard, hmem with
  | [r], _, hord, hax, hstart, hlen, hnodup, hcard, hmem =>
    refine ⟨_, by rw [hstart]; rfl, ?_, cart (List.replicate 1 (List.range n)), hnodup, hmem, ?_⟩
    · simp [cart_length, linspaceNat_eq]
    · rw [← cart_zipWith _ _ _ (by simp)]
      exact congrArg cart (hax [r])
  | r₀ :: r₁ :: rest, _, hord, hax, hstart, hlen, hnodup, hcard, hmem =>
    have hc := cart_zipWith (axisNode n) (r₁ :: r₀ :: rest)
      (List.replicate (r₁ :: r₀ :: rest).length (List.range n)) (by simp)
    rw [← hax] at hc
    simp only [List.map_cons] at hc
    have hinj : Function.Injective (swap01 : List ℕ → List ℕ) :=
      fun a b hab => by rw [← swap01_swap01 a, hab, swap01_swap01]
    refine ⟨_, by rw [hstart]; simp only [List.map_cons, meshgridRows]; rfl, ?_,
      (cart (List.replicate (r₁ :: r₀ :: rest).length (List.range n))).map swap01,
      List.Nodup.map hinj hnodup, ?_, ?_⟩
    · rw [hc, List.length_map, List.length_map]; exact hcard
    · intro p
      have hsl : ∀ q : List ℕ, (swap01 q).length = q.length := by
        intro q
        match q with
        | [] => rfl
        | [_] => rfl
        | _ :: _ :: _ => rfl
      have hsm : ∀ (q : List ℕ) i, i ∈ swap01 q ↔ i ∈ q := by
        intro q i
        match q with
        | [] => rfl
        | [_] => rfl
        | a :: b :: t => simp [swap01]; tauto
      rw [List.mem_map]
      constructor
      · rintro ⟨q, hq, rfl⟩
        have := (hmem q).1 hq
        rw [hsl]
        exact ⟨this.1, fun i hi => this.2 i ((hsm q i).1 hi)⟩
      · intro hp
        refine ⟨swap01 p, (hmem _).2 ?_, swap01_swap01 p⟩
        rw [hsl]
        exact ⟨hp.1, fun i hi => hp.2 i ((hsm p i).1 hi)⟩
    · rw [hc, List.map_map, List.map_map]
      apply List.map_congr_left
      intro p hp
      have hpl := hlen p hp
      match p, hpl with
      | a :: b :: t, _ => simp [swap01]

/-- C15. A grid needs at least one axis, ordered ends and a non-negative number of values. -/
theorem C15_fails (ranges : List (ℝ × ℝ)) (n : ℤ)
    (h : ranges = [] ∨ (∃ r ∈ ranges, r.2 < r.1) ∨ n < 0) :
    ∃ e, getGrids ranges n = .error e := by
  by_cases hord : ∀ r ∈ ranges, r.1 ≤ r.2
  · cases ranges with
    | nil => exact ⟨.value, by simp [getGrids, pyAssert, bind, Except.bind, pure, Except.pure,
        meshgridRows]⟩
    | cons r rs =>
      have hn : n < 0 := by
        rcases h with h | ⟨s, hs, hlt⟩ | h
        · simp at h
        · exact absurd (hord s hs) (by linarith)
        · exact h
      refine ⟨.value, ?_⟩
      unfold getGrids
      simp only [pyAssert, bind, Except.bind]
      rw [if_pos hord, List.mapM_cons]
      simp [linspace, hn, bind, Except.bind]
  · refine ⟨.assertion, ?_⟩
    unfold getGrids
    simp only [pyAssert, bind, Except.bind]
    rw [if_neg hord]

/-- C15. With `n >= 2` values the axis runs from its lower to its upper end in equal steps. -/
theorem C15_axis (n : ℕ) (hn : 2 ≤ n) (r : ℝ × ℝ) :
    axisNode n r 0 = r.1 ∧ axisNode n r (n - 1) = r.2 ∧
    ∀ i, axisNode n r (i + 1) - axisNode n r i = (r.2 - r.1) / ((n : ℝ) - 1) := by
  have h2 : (2 : ℝ) ≤ n := by exact_mod_cast hn
  have hne : (n : ℝ) - 1 ≠ 0 := by linarith
  refine ⟨by simp [axisNode], ?_, ?_⟩
  · simp only [axisNode]
    rw [Nat.cast_sub (by omega), Nat.cast_one, mul_div_assoc, mul_div_cancel₀ _ hne]
    ring
  · intro i
    simp only [axisNode]; push_cast
    field_simp
    ring

/-- C15. With a single value per axis only the corner of lower ends is returned. -/
theorem C15_single (ranges : List (ℝ × ℝ)) (hne : ranges ≠ [])
    (hord : ∀ r ∈ ranges, r.1 ≤ r.2) :
    getGrids ranges 1 = .ok [ranges.map Prod.fst] := by
  obtain ⟨rows, hg, hl, idx, hnd, hmem, rfl⟩ := C15_grid ranges 1 hne hord
  have hidx : idx = [List.replicate ranges.length 0] := by
    have hl' : idx.length = 1 := by simpa using hl
    obtain ⟨p, rfl⟩ := List.length_eq_one_iff.1 hl'
    have hp := (hmem p).1 (by simp)
    congr 1
    rw [List.eq_replicate_iff]
    exact ⟨hp.1, fun i hi => by have := hp.2 i hi; omega⟩
  rw [show ((1 : ℤ)) = ((1 : ℕ) : ℤ) by norm_num, hg, hidx]
  simp only [List.map_cons, List.map_nil]
  congr 2
  clear hg hl hmem hidx hord hne
  induction ranges with
  | nil => rfl
  | cons r rs ih => simp [List.replicate_succ, ih, axisNode]

/-- Concrete case of C15: two axes, two values each; four rows, second coordinate slowest. -/
example : getGrids [(0, 1), (10, 20)] 2 =
    .ok [[0, 10], [1, 10], [0, 20], [1, 20]] := by
  simp [getGrids, pyAssert, bind, Except.bind, pure, Except.pure, linspace, linspaceNat,
    meshgridRows, cart, swap01]
  norm_num

end Verif.Props
