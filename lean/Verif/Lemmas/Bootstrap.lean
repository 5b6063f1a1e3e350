import Verif.Spec.Bootstrap
import Verif.Model.Trees
import Mathlib.Data.Fintype.CardEmbedding
import Mathlib.Data.Fintype.BigOperators

/-! # Random choices of rows (lemmas for C112) -/

namespace Verif.Lemmas

open Verif.Spec Verif.Trees MeasureTheory

variable {Ω : Type} [MeasurableSpace Ω]

theorem takeRows_ofFn {α : Type} (X : List α) {k : ℕ} (v : Fin k → Fin X.length) :
    takeRows X (List.ofFn fun t => (v t : ℕ)) = .ok (List.ofFn fun t => X[(v t : ℕ)]) := by
  induction k with
  | zero => rfl
  | succ k ih =>
    rw [List.ofFn_succ, List.ofFn_succ, takeRows, List.mapM_cons]
    have := ih fun t => v t.succ
    rw [takeRows] at this
    rw [this]
    simp [pyIndex, bind, Except.bind, pure, Except.pure]

theorem takeRows_congr {α : Type} {X X' : List α} {idx : List ℕ}
    (h : ∀ i ∈ idx, X[i]? = X'[i]?) : takeRows X idx = takeRows X' idx := by
  induction idx with
  | nil => rfl
  | cons a t ih =>
    have h1 := ih fun i hi => h i (List.mem_cons_of_mem _ hi)
    rw [takeRows] at h1 ⊢
    rw [takeRows] at h1 ⊢
    rw [List.mapM_cons, List.mapM_cons, h1, pyIndex, pyIndex, h a List.mem_cons_self]

theorem mapM_congr_on {α β : Type} {f g : α → Py β} {l : List α} (h : ∀ a ∈ l, f a = g a) :
    l.mapM f = l.mapM g := by
  induction l with
  | nil => rfl
  | cons a t ih =>
    rw [List.mapM_cons, List.mapM_cons, h a List.mem_cons_self,
      ih fun b hb => h b (List.mem_cons_of_mem _ hb)]

/-- Rows of a sample are told apart if the data has no two equal rows. -/
theorem mem_rows {α : Type} {X : List α} (hX : X.Nodup) {k : ℕ} (v : Fin k → Fin X.length)
    (i : Fin X.length) : X[(i : ℕ)] ∈ (List.ofFn fun t => X[(v t : ℕ)]) ↔ ∃ t, v t = i := by
  rw [List.mem_ofFn]
  constructor
  · rintro ⟨t, ht⟩
    exact ⟨t, Fin.ext ((List.Nodup.getElem_inj_iff hX).1 ht)⟩
  · rintro ⟨t, rfl⟩
    exact ⟨t, rfl⟩

theorem count_avoid (n k : ℕ) (i : Fin n) :
    (Finset.univ.filter fun v : Fin k → Fin n => ∀ t, v t ≠ i).card = (n - 1) ^ k := by
  have : (Finset.univ.filter fun v : Fin k → Fin n => ∀ t, v t ≠ i) =
      Fintype.piFinset fun _ => Finset.univ.erase i := by
    ext v
    simp [Fintype.mem_piFinset]
  rw [this, Fintype.card_piFinset]
  simp

theorem count_avoid_injective (n k : ℕ) (i : Fin n) :
    (Finset.univ.filter fun v : Fin k → Fin n => Function.Injective v ∧ ∀ t, v t ≠ i).card =
      (n - 1).descFactorial k := by
  rw [← Fintype.card_subtype]
  have e : {v : Fin k → Fin n // Function.Injective v ∧ ∀ t, v t ≠ i} ≃
      (Fin k ↪ {x : Fin n // x ≠ i}) :=
    { toFun := fun v => ⟨fun t => ⟨v.1 t, v.2.2 t⟩, fun a b hab => v.2.1 (Subtype.ext_iff.1 hab)⟩
      invFun := fun f => ⟨fun t => (f t).1, fun a b hab => f.injective (Subtype.ext hab),
        fun t => (f t).2⟩
      left_inv := fun _ => rfl
      right_inv := fun _ => rfl }
  rw [Fintype.card_congr e, Fintype.card_embedding_eq]
  simp

theorem count_avoid_all (m n k : ℕ) (i : Fin n) :
    (Finset.univ.filter fun v : Fin m → Fin k → Fin n => ∀ t s, v t s ≠ i).card =
      ((n - 1) ^ k) ^ m := by
  have : (Finset.univ.filter fun v : Fin m → Fin k → Fin n => ∀ t s, v t s ≠ i) =
      Fintype.piFinset fun _ => Finset.univ.filter fun v : Fin k → Fin n => ∀ t, v t ≠ i := by
    ext v
    simp [Fintype.mem_piFinset]
  rw [this, Fintype.card_piFinset]
  simp [count_avoid]

/-- The probability of a set of outcomes that are equally likely. -/
theorem measure_choices {μ : Measure Ω} {V : Type} [MeasurableSpace V] [MeasurableSingletonClass V]
    {J : Ω → V} (hJ : Measurable J)
    (S : Finset V) {p : ENNReal} (hp : ∀ v ∈ S, μ (J ⁻¹' {v}) = p) :
    μ {ω | J ω ∈ S} = S.card * p := by
  have h := sum_measure_preimage_singleton (μ := μ) S (f := J)
    (fun v _ => hJ (measurableSet_singleton v))
  rw [Finset.sum_congr rfl hp, Finset.sum_const, nsmul_eq_mul] at h
  rw [h]
  rfl

theorem ratio_ofReal {a b : ℕ} (hb : 0 < b) :
    (a : ENNReal) * (b : ENNReal)⁻¹ = ENNReal.ofReal ((a : ℝ) / b) := by
  rw [ENNReal.ofReal_div_of_pos (by exact_mod_cast hb), ENNReal.ofReal_natCast,
    ENNReal.ofReal_natCast, div_eq_mul_inv]

/-- Without replacement every position is drawn with probability `k / n`. -/
theorem measure_tried {μ : Measure Ω} [IsProbabilityMeasure μ] {n k : ℕ} {c : Ω → List ℕ}
    (hc : WithoutReplacement μ n k c) {j : ℕ} (hj : j < n) :
    μ {ω | j ∈ c ω} = ENNReal.ofReal ((k : ℝ) / n) := by
  obtain ⟨J, hJ, hJc, hinj, hp⟩ := hc
  have hn0 : (n : ℝ) ≠ 0 := by
    have : n ≠ 0 := by omega
    exact_mod_cast this
  obtain ⟨ω₀⟩ : Nonempty Ω := nonempty_of_isProbabilityMeasure μ
  have hkn : k ≤ n := by simpa using Fintype.card_le_of_injective _ (hinj ω₀)
  have hd : 0 < n.descFactorial k := Nat.descFactorial_pos.2 hkn
  have e : {ω | j ∈ c ω} = {ω | J ω ∈ Finset.univ.filter fun v : Fin k → Fin n =>
      Function.Injective v ∧ ∀ t, v t ≠ ⟨j, hj⟩}ᶜ := by
    ext ω
    simp [hJc ω, List.mem_ofFn, hinj ω, Fin.ext_iff]
  have hms : MeasurableSet {ω | J ω ∈ Finset.univ.filter fun v : Fin k → Fin n =>
      Function.Injective v ∧ ∀ t, v t ≠ ⟨j, hj⟩} := hJ (Finset.measurableSet _)
  have hle : (k : ℝ) / n ≤ 1 := by
    rw [div_le_one (lt_of_le_of_ne (Nat.cast_nonneg _) hn0.symm)]
    exact_mod_cast hkn
  rw [e, measure_compl hms (measure_ne_top _ _), measure_univ,
    measure_choices hJ _ (fun v hv => hp v (Finset.mem_filter.1 hv).2.1), count_avoid_injective,
    ratio_ofReal hd]
  have hr : ((n - 1).descFactorial k : ℝ) / n.descFactorial k = 1 - (k : ℝ) / n := by
    obtain ⟨m, rfl⟩ : ∃ m, n = m + 1 := ⟨n - 1, by omega⟩
    have h := Nat.succ_descFactorial m k
    have h' : ((m + 1 : ℕ) - (k : ℝ)) * ((m + 1).descFactorial k : ℝ) =
        (m + 1 : ℕ) * (m.descFactorial k : ℝ) := by
      rw [← Nat.cast_sub hkn]
      exact_mod_cast h
    have hd' : ((m + 1).descFactorial k : ℝ) ≠ 0 := by exact_mod_cast hd.ne'
    rw [Nat.add_sub_cancel, eq_comm, one_sub_div hn0, div_eq_div_iff hn0 hd', h']
    ring
  rw [hr, ← ENNReal.ofReal_one, ← ENNReal.ofReal_sub _ (by linarith)]
  congr 1
  ring

/-- The probability that no tree draws row `i`. -/
theorem measure_avoid_all {Ω : Type} [MeasurableSpace Ω] {μ : Measure Ω} {m n k : ℕ}
    {c : Ω → ℕ → List ℕ} (hc : TreeDraws μ m n k c) {i : ℕ} (hi : i < n) :
    μ {ω | ∀ t < m, i ∉ c ω t} = ENNReal.ofReal ((((n : ℝ) - 1) / n) ^ (k * m)) := by
  obtain ⟨J, hJ, hJc, hp⟩ := hc
  have hn0 : 0 < n := by omega
  have e : {ω | ∀ t < m, i ∉ c ω t} =
      {ω | J ω ∈ Finset.univ.filter fun v : Fin m → Fin k → Fin n => ∀ t s, v t s ≠ ⟨i, hi⟩} := by
    ext ω
    simp only [Set.mem_setOf_eq, Finset.mem_filter, Finset.mem_univ, true_and]
    constructor
    · intro h t s hts
      refine h t t.2 ?_
      rw [hJc ω t, List.mem_ofFn]
      exact ⟨s, by rw [hts]⟩
    · intro h t ht hx
      have := hJc ω ⟨t, ht⟩
      simp only at this
      rw [this, List.mem_ofFn] at hx
      obtain ⟨s, hs⟩ := hx
      exact h ⟨t, ht⟩ s (Fin.ext hs)
  rw [e, measure_choices hJ _ (fun v _ => hp v), count_avoid_all,
    show (((n : ENNReal) ^ k) ^ m)⁻¹ = (((n ^ k) ^ m : ℕ) : ENNReal)⁻¹ by push_cast; rfl,
    ratio_ofReal (pow_pos (pow_pos hn0 k) m)]
  congr 1
  rw [pow_mul, div_pow, div_pow, Nat.cast_pow, Nat.cast_pow, Nat.cast_pow, Nat.cast_pow,
    Nat.cast_sub hn0, Nat.cast_one]

end Verif.Lemmas
