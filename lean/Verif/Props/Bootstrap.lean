import Verif.Lemmas.Bootstrap
import Verif.Lemmas.Chance
import Mathlib.Analysis.SpecialFunctions.Complex.LogBounds
import Mathlib.MeasureTheory.Integral.Lebesgue.Basic

/-! # C112: which rows the trees of a forest see -/

namespace Verif.Props

open Verif.Spec Verif.Lemmas Verif.Trees MeasureTheory

variable {Ω : Type} [MeasurableSpace Ω] {d : ℕ}

private theorem subsample_rows (choice : ℕ → ℕ → List ℕ) (X : List (Point d)) (Y : List ℝ)
    (hXY : X.length = Y.length) (ratio : ℝ) (rep : Bool) (h0 : 0 < ratio)
    (h1 : rep = false → ratio ≤ 1) (hn : 0 < X.length) {k : ℕ}
    (hk : ⌊(X.length : ℝ) * ratio⌋₊ = k)
    (v : Fin k → Fin X.length) (hv : choice X.length k = List.ofFn fun t => (v t : ℕ)) :
    subsample choice X Y ratio rep =
      .ok (List.ofFn fun t => X[(v t : ℕ)], List.ofFn fun t => Y[(v t : ℕ)]) := by
  have hk' : rep = false → k ≤ X.length := by
    intro hr
    rw [← hk]
    refine Nat.floor_le_of_le ?_
    have : (0 : ℝ) ≤ X.length := Nat.cast_nonneg _
    nlinarith [h1 hr]
  have hY := takeRows_ofFn Y fun t => (⟨v t, hXY ▸ (v t).2⟩ : Fin Y.length)
  have hc : ¬ ((X.length = 0 ∧ ⌊(X.length : ℝ) * ratio⌋₊ > 0) ∨
      (rep = false ∧ ⌊(X.length : ℝ) * ratio⌋₊ > X.length)) := by
    rw [hk]
    rintro (⟨h, -⟩ | ⟨h, h'⟩)
    · omega
    · have := hk' h
      omega
  have hp : (if rep then pyAssert (ratio > 0) else pyAssert (0 < ratio ∧ ratio ≤ 1) : Py Unit) =
      .ok () := by
    cases rep
    · simp [pyAssert, h0, h1 rfl]
    · simp [pyAssert, h0]
  simp only [subsample, pyAssert, if_pos hXY] at hp ⊢
  cases rep <;> simp_all [bind, Except.bind, pure, Except.pure, takeRows_ofFn]

/-- C112. Every place of a sample with replacement is filled by every row with the same probability. -/
theorem C112_place {μ : Measure Ω} (choice : Ω → ℕ → ℕ → List ℕ) (X : List (Point d))
    (hX : X.Nodup) (Y : List ℝ) (hXY : X.length = Y.length) (ratio : ℝ) (h0 : 0 < ratio)
    (hc : WithReplacement μ X.length ⌊(X.length : ℝ) * ratio⌋₊
      fun ω => choice ω X.length ⌊(X.length : ℝ) * ratio⌋₊)
    (i t : ℕ) (hi : i < X.length) (ht : t < ⌊(X.length : ℝ) * ratio⌋₊) :
    μ {ω | ∃ X' Y', subsample (choice ω) X Y ratio true = .ok (X', Y') ∧ X'[t]? = some X[i] ∧
      Y'[t]? = Y[i]?} = ENNReal.ofReal (1 / X.length) := by
  generalize hk : ⌊(X.length : ℝ) * ratio⌋₊ = k at *
  obtain ⟨J, hJ, hJc, hp⟩ := hc
  have e : {ω | ∃ X' Y', subsample (choice ω) X Y ratio true = .ok (X', Y') ∧ X'[t]? = some X[i] ∧
      Y'[t]? = Y[i]?} =
      {ω | J ω ∈ Finset.univ.filter fun v : Fin k → Fin X.length => v ⟨t, ht⟩ = ⟨i, hi⟩} := by
    ext ω
    have hs := subsample_rows (choice ω) X Y hXY ratio true h0 (by simp) (by omega) hk (J ω) (hJc ω)
    simp only [Set.mem_setOf_eq, hs, Finset.mem_filter, Finset.mem_univ, true_and]
    constructor
    · rintro ⟨X', Y', h, hx, -⟩
      simp only [Except.ok.injEq, Prod.mk.injEq] at h
      rw [← h.1, List.getElem?_ofFn, dif_pos ht, Option.some_inj] at hx
      exact Fin.ext ((List.Nodup.getElem_inj_iff hX).1 hx)
    · intro h
      refine ⟨_, _, rfl, ?_, ?_⟩
      · rw [List.getElem?_ofFn, dif_pos ht]
        simp [h]
      · rw [List.getElem?_ofFn, dif_pos ht]
        simp [h, ← hXY, hi]
  have hcard : (Finset.univ.filter fun v : Fin k → Fin X.length => v ⟨t, ht⟩ = ⟨i, hi⟩).card =
      X.length ^ (k - 1) := by
    have : (Finset.univ.filter fun v : Fin k → Fin X.length => v ⟨t, ht⟩ = ⟨i, hi⟩) =
        Fintype.piFinset fun s => if s = ⟨t, ht⟩ then {⟨i, hi⟩} else Finset.univ := by
      ext v
      simp only [Finset.mem_filter, Finset.mem_univ, true_and, Fintype.mem_piFinset]
      constructor
      · intro h s
        by_cases hs : s = ⟨t, ht⟩
        · simp [hs, h]
        · simp [hs]
      · intro h
        simpa using h ⟨t, ht⟩
    rw [this, Fintype.card_piFinset, ← Finset.mul_prod_erase _ _ (Finset.mem_univ ⟨t, ht⟩)]
    rw [Finset.prod_congr rfl (g := fun _ => X.length) (fun s hs => by
      simp [Finset.ne_of_mem_erase hs])]
    simp
  have hn0 : 0 < X.length := by omega
  rw [e, measure_choices hJ _ (fun v _ => hp v), hcard,
    show ((X.length : ENNReal) ^ k)⁻¹ = ((X.length ^ k : ℕ) : ENNReal)⁻¹ by push_cast; rfl,
    ratio_ofReal (pow_pos hn0 k)]
  congr 1
  obtain ⟨k', rfl⟩ : ∃ k', k = k' + 1 := ⟨k - 1, by omega⟩
  have : (X.length : ℝ) ≠ 0 := by exact_mod_cast hn0.ne'
  push_cast
  rw [pow_succ]
  field_simp

/-- C112. A row is missing from a sample of `k` rows with replacement with probability
`((n - 1) / n)^k`. -/
theorem C112_left_out {μ : Measure Ω} (choice : Ω → ℕ → ℕ → List ℕ) (X : List (Point d))
    (hX : X.Nodup) (Y : List ℝ) (hXY : X.length = Y.length) (ratio : ℝ) (h0 : 0 < ratio)
    (hc : WithReplacement μ X.length ⌊(X.length : ℝ) * ratio⌋₊
      fun ω => choice ω X.length ⌊(X.length : ℝ) * ratio⌋₊)
    (i : ℕ) (hi : i < X.length) :
    μ {ω | ∃ X' Y', subsample (choice ω) X Y ratio true = .ok (X', Y') ∧ X[i] ∉ X'} =
      ENNReal.ofReal ((((X.length : ℝ) - 1) / X.length) ^ ⌊(X.length : ℝ) * ratio⌋₊) := by
  generalize hk : ⌊(X.length : ℝ) * ratio⌋₊ = k at *
  obtain ⟨J, hJ, hJc, hp⟩ := hc
  have e : {ω | ∃ X' Y', subsample (choice ω) X Y ratio true = .ok (X', Y') ∧ X[i] ∉ X'} =
      {ω | J ω ∈ Finset.univ.filter fun v : Fin k → Fin X.length => ∀ t, v t ≠ ⟨i, hi⟩} := by
    ext ω
    have hs := subsample_rows (choice ω) X Y hXY ratio true h0 (by simp) (by omega) hk (J ω) (hJc ω)
    have hm := mem_rows hX (J ω) ⟨i, hi⟩
    simp only [Set.mem_setOf_eq, hs, Finset.mem_filter, Finset.mem_univ, true_and,
      Except.ok.injEq, Prod.mk.injEq]
    constructor
    · rintro ⟨X', Y', h, hx⟩ t ht
      rw [← h.1] at hx
      exact hx (hm.2 ⟨t, ht⟩)
    · intro h
      refine ⟨_, _, ⟨rfl, rfl⟩, fun hx => ?_⟩
      obtain ⟨t, ht⟩ := hm.1 hx
      exact h t ht
  have hn0 : 0 < X.length := by omega
  rw [e, measure_choices hJ _ (fun v _ => hp v), count_avoid,
    show ((X.length : ENNReal) ^ k)⁻¹ = ((X.length ^ k : ℕ) : ENNReal)⁻¹ by push_cast; rfl,
    ratio_ofReal (pow_pos hn0 k)]
  congr 1
  rw [div_pow, Nat.cast_pow, Nat.cast_pow, Nat.cast_sub hn0, Nat.cast_one]

/-- C112. A row is missing from a sample of `k` rows without replacement with probability
`(n - k) / n`. -/
theorem C112_left_out_without {μ : Measure Ω} (choice : Ω → ℕ → ℕ → List ℕ) (X : List (Point d))
    (hX : X.Nodup) (Y : List ℝ) (hXY : X.length = Y.length) (ratio : ℝ) (h0 : 0 < ratio)
    (h1 : ratio ≤ 1)
    (hc : WithoutReplacement μ X.length ⌊(X.length : ℝ) * ratio⌋₊
      fun ω => choice ω X.length ⌊(X.length : ℝ) * ratio⌋₊)
    (i : ℕ) (hi : i < X.length) :
    μ {ω | ∃ X' Y', subsample (choice ω) X Y ratio false = .ok (X', Y') ∧ X[i] ∉ X'} =
      ENNReal.ofReal (1 - (⌊(X.length : ℝ) * ratio⌋₊ : ℝ) / X.length) := by
  have hkn : ⌊(X.length : ℝ) * ratio⌋₊ ≤ X.length := by
    refine Nat.floor_le_of_le ?_
    have : (0 : ℝ) ≤ X.length := Nat.cast_nonneg _
    nlinarith
  generalize hk : ⌊(X.length : ℝ) * ratio⌋₊ = k at *
  obtain ⟨J, hJ, hJc, hinj, hp⟩ := hc
  have e : {ω | ∃ X' Y', subsample (choice ω) X Y ratio false = .ok (X', Y') ∧ X[i] ∉ X'} =
      {ω | J ω ∈ Finset.univ.filter fun v : Fin k → Fin X.length =>
        Function.Injective v ∧ ∀ t, v t ≠ ⟨i, hi⟩} := by
    ext ω
    have hs := subsample_rows (choice ω) X Y hXY ratio false h0 (fun _ => h1) (by omega) hk (J ω)
      (hJc ω)
    have hm := mem_rows hX (J ω) ⟨i, hi⟩
    simp only [Set.mem_setOf_eq, hs, Finset.mem_filter, Finset.mem_univ, true_and,
      Except.ok.injEq, Prod.mk.injEq]
    constructor
    · rintro ⟨X', Y', h, hx⟩
      refine ⟨hinj ω, fun t ht => ?_⟩
      rw [← h.1] at hx
      exact hx (hm.2 ⟨t, ht⟩)
    · rintro ⟨-, h⟩
      refine ⟨_, _, ⟨rfl, rfl⟩, fun hx => ?_⟩
      obtain ⟨t, ht⟩ := hm.1 hx
      exact h t ht
  have hn0 : 0 < X.length := by omega
  have hd : 0 < X.length.descFactorial k := Nat.descFactorial_pos.2 hkn
  rw [e, measure_choices hJ _ (fun v hv => hp v (Finset.mem_filter.1 hv).2.1),
    count_avoid_injective, ratio_ofReal hd]
  congr 1
  clear e hp hJc hinj hJ J
  generalize X.length = n at hkn hd hn0 ⊢
  obtain ⟨m, rfl⟩ : ∃ m, n = m + 1 := ⟨n - 1, by omega⟩
  have h := Nat.succ_descFactorial m k
  rw [Nat.add_sub_cancel]
  have h' : ((m + 1 : ℕ) - (k : ℝ)) * ((m + 1).descFactorial k : ℝ) =
      (m + 1 : ℕ) * (m.descFactorial k : ℝ) := by
    rw [← Nat.cast_sub hkn]
    exact_mod_cast h
  have hd' : ((m + 1).descFactorial k : ℝ) ≠ 0 := by exact_mod_cast hd.ne'
  have hm' : ((m + 1 : ℕ) : ℝ) ≠ 0 := by exact_mod_cast hn0.ne'
  rw [eq_comm, one_sub_div hm', div_eq_div_iff hm' hd', h']
  ring

/-- C112. With as many draws as rows, the probability of missing a given row tends to `exp (-1)`, about
37 percent, as the data grows; no matter what the data is. -/
theorem C112_limit (ε : ℝ) (hε : 0 < ε) : ∃ N : ℕ, ∀ (d : ℕ) (Ω : Type) (_ : MeasurableSpace Ω)
    (μ : Measure Ω) (choice : Ω → ℕ → ℕ → List ℕ) (X : List (Point d)) (Y : List ℝ) (i : ℕ)
    (hi : i < X.length), N ≤ X.length → X.Nodup → X.length = Y.length →
    WithReplacement μ X.length X.length (fun ω => choice ω X.length X.length) →
    |(μ {ω | ∃ X' Y', subsample (choice ω) X Y 1 true = .ok (X', Y') ∧ X[i] ∉ X'}).toReal -
      Real.exp (-1)| < ε := by
  have h := Real.tendsto_one_add_div_pow_exp (-1)
  obtain ⟨N, hN⟩ := (Metric.tendsto_atTop.1 h) ε hε
  refine ⟨N, fun d Ω _ μ choice X Y i hi hNX hX hXY hc => ?_⟩
  have hk : ⌊(X.length : ℝ) * 1⌋₊ = X.length := by simp
  have hn0 : (0 : ℝ) < X.length := by exact_mod_cast (by omega : 0 < X.length)
  have hn1 : (1 : ℝ) ≤ X.length := by exact_mod_cast (by omega : 1 ≤ X.length)
  rw [C112_left_out choice X hX Y hXY 1 one_pos (by rw [hk]; exact hc) i hi, hk,
    ENNReal.toReal_ofReal (pow_nonneg (div_nonneg (by linarith) hn0.le) _)]
  have h2 := hN X.length hNX
  rw [Real.dist_eq] at h2
  rwa [show ((X.length : ℝ) - 1) / X.length = 1 + -1 / X.length by field_simp; ring]

open Classical in
/-- C112. The expected number of different rows in a sample of `k` rows with replacement is
`n (1 - ((n - 1) / n)^k)`. -/
theorem C112_distinct {μ : Measure Ω} [IsProbabilityMeasure μ] (choice : Ω → ℕ → ℕ → List ℕ)
    (X : List (Point d)) (hX : X.Nodup) (Y : List ℝ) (hXY : X.length = Y.length)
    (hn : 0 < X.length) (ratio : ℝ) (h0 : 0 < ratio)
    (hc : WithReplacement μ X.length ⌊(X.length : ℝ) * ratio⌋₊
      fun ω => choice ω X.length ⌊(X.length : ℝ) * ratio⌋₊) :
    ∃ S : Ω → List (Point d) × List ℝ,
      (∀ ω, subsample (choice ω) X Y ratio true = .ok (S ω)) ∧
      ∫⁻ ω, ((S ω).1.toFinset.card : ENNReal) ∂μ = ENNReal.ofReal (X.length *
        (1 - (((X.length : ℝ) - 1) / X.length) ^ ⌊(X.length : ℝ) * ratio⌋₊)) := by
  have hlo := C112_left_out choice X hX Y hXY ratio h0 hc
  generalize hk : ⌊(X.length : ℝ) * ratio⌋₊ = k at *
  obtain ⟨J, hJ, hJc, hp⟩ := hc
  have hs : ∀ ω, subsample (choice ω) X Y ratio true = _ := fun ω =>
    subsample_rows (choice ω) X Y hXY ratio true h0 (by simp) hn hk (J ω) (hJc ω)
  refine ⟨_, hs, ?_⟩
  have hmeas : ∀ i : Fin X.length, MeasurableSet {ω | ∀ t, J ω t ≠ i} := fun i =>
    hJ (t := {v | ∀ t, v t ≠ i}) (Set.toFinite _).measurableSet
  have hcard : ∀ ω, (((List.ofFn fun t => X[(J ω t : ℕ)]).toFinset.card : ℕ) : ENNReal) =
      ∑ i : Fin X.length, Set.indicator {ω | ∀ t, J ω t ≠ i}ᶜ 1 ω := by
    intro ω
    have : (List.ofFn fun t => X[(J ω t : ℕ)]).toFinset =
        (Finset.univ.filter fun i : Fin X.length => ∃ t, J ω t = i).image
          fun i : Fin X.length => X[(i : ℕ)] := by
      ext p
      simp [List.mem_ofFn]
    rw [this, Finset.card_image_of_injective _ (fun a b h =>
      Fin.ext ((List.Nodup.getElem_inj_iff hX).1 h)), Finset.card_filter]
    push_cast
    refine Finset.sum_congr rfl fun i _ => ?_
    by_cases h : ∃ t, J ω t = i
    · rw [if_pos h, Set.indicator_of_mem]
      · rfl
      · simpa using h
    · rw [if_neg h, Set.indicator_of_notMem]
      simpa using h
  simp only [hcard]
  rw [lintegral_finset_sum _ (fun i _ => measurable_one.indicator (hmeas i).compl)]
  have hone : ∀ i : Fin X.length, ∫⁻ ω, Set.indicator {ω | ∀ t, J ω t ≠ i}ᶜ 1 ω ∂μ =
      ENNReal.ofReal (1 - (((X.length : ℝ) - 1) / X.length) ^ k) := by
    intro i
    have hn0 : (0 : ℝ) < X.length := by exact_mod_cast hn
    have hn1 : (1 : ℝ) ≤ X.length := by exact_mod_cast hn
    rw [lintegral_indicator_one (hmeas i).compl, measure_compl (hmeas i) (measure_ne_top _ _),
      measure_univ, ENNReal.ofReal_sub _ (pow_nonneg (div_nonneg (by linarith) hn0.le) _),
      ENNReal.ofReal_one, ← hlo i i.2]
    congr 2
    ext ω
    have hm := mem_rows hX (J ω) i
    simp only [Set.mem_setOf_eq, hs]
    constructor
    · intro h
      refine ⟨_, _, rfl, fun hx => ?_⟩
      obtain ⟨t, ht⟩ := hm.1 hx
      exact h t ht
    · rintro ⟨X', Y', h, hx⟩ t ht
      simp only [Except.ok.injEq, Prod.mk.injEq] at h
      rw [← h.1] at hx
      exact hx (hm.2 ⟨t, ht⟩)
  rw [Finset.sum_congr rfl fun i _ => hone i, Finset.sum_const, Finset.card_univ, Fintype.card_fin,
    nsmul_eq_mul, ENNReal.ofReal_mul (Nat.cast_nonneg _), ENNReal.ofReal_natCast]

/-- C112. A row is seen by none of `m` trees with probability `((n - 1) / n)^(k m)`. -/
theorem C112_no_tree {μ : Measure Ω} (rnd : Ω → ForestRnd d) (X : List (Point d)) (hX : X.Nodup)
    (Y : List ℝ) (hXY : X.length = Y.length) (m : ℕ) (ratio : ℝ) (h0 : 0 < ratio)
    (hc : TreeDraws μ m X.length ⌊(X.length : ℝ) * ratio⌋₊
      fun ω t => (rnd ω).sample t X.length ⌊(X.length : ℝ) * ratio⌋₊)
    (i : ℕ) (hi : i < X.length) :
    μ {ω | ∀ t < m, ∃ X' Y', subsample ((rnd ω).sample t) X Y ratio true = .ok (X', Y') ∧
      X[i] ∉ X'} =
      ENNReal.ofReal ((((X.length : ℝ) - 1) / X.length) ^ (⌊(X.length : ℝ) * ratio⌋₊ * m)) := by
  generalize hk : ⌊(X.length : ℝ) * ratio⌋₊ = k at *
  obtain ⟨J, hJ, hJc, hp⟩ := hc
  have e : {ω | ∀ t < m, ∃ X' Y', subsample ((rnd ω).sample t) X Y ratio true = .ok (X', Y') ∧
      X[i] ∉ X'} = {ω | J ω ∈ Finset.univ.filter fun v : Fin m → Fin k → Fin X.length =>
        ∀ t s, v t s ≠ ⟨i, hi⟩} := by
    ext ω
    have hs : ∀ t : Fin m, subsample ((rnd ω).sample t) X Y ratio true = _ := fun t =>
      subsample_rows ((rnd ω).sample t) X Y hXY ratio true h0 (by simp) (by omega) hk (J ω t)
        (hJc ω t)
    simp only [Set.mem_setOf_eq, Finset.mem_filter, Finset.mem_univ, true_and]
    constructor
    · intro h t s hts
      obtain ⟨X', Y', h1, hx⟩ := h t t.2
      rw [hs t] at h1
      simp only [Except.ok.injEq, Prod.mk.injEq] at h1
      rw [← h1.1] at hx
      exact hx ((mem_rows hX (J ω t) ⟨i, hi⟩).2 ⟨s, hts⟩)
    · intro h t ht
      refine ⟨_, _, hs ⟨t, ht⟩, fun hx => ?_⟩
      obtain ⟨s, hs'⟩ := (mem_rows hX (J ω ⟨t, ht⟩) ⟨i, hi⟩).1 hx
      exact h _ s hs'
  have hn0 : 0 < X.length := by omega
  rw [e, measure_choices hJ _ (fun v _ => hp v), count_avoid_all,
    show (((X.length : ENNReal) ^ k) ^ m)⁻¹ = (((X.length ^ k) ^ m : ℕ) : ENNReal)⁻¹ by
      push_cast; rfl,
    ratio_ofReal (pow_pos (pow_pos hn0 k) m)]
  congr 1
  rw [pow_mul, div_pow, div_pow, Nat.cast_pow, Nat.cast_pow, Nat.cast_pow, Nat.cast_pow,
    Nat.cast_sub hn0, Nat.cast_one]

private theorem subsample_set (choice : ℕ → ℕ → List ℕ) (X : List (Point d)) (Y : List ℝ)
    (hXY : X.length = Y.length) (ratio : ℝ) (rep : Bool) (i : ℕ) (y : ℝ)
    (h : i ∉ choice X.length ⌊(X.length : ℝ) * ratio⌋₊) :
    subsample choice X (Y.set i y) ratio rep = subsample choice X Y ratio rep := by
  have ht : takeRows (Y.set i y) (choice X.length ⌊(X.length : ℝ) * ratio⌋₊) =
      takeRows Y (choice X.length ⌊(X.length : ℝ) * ratio⌋₊) :=
    takeRows_congr fun j hj => by
      rw [List.getElem?_set_ne]
      rintro rfl
      exact h hj
  simp only [subsample, List.length_set, ht]

/-- C112. So with at least that probability a forest does not depend on a given response at all: the
same forest is grown, and hence the same predictions made, whatever the response is. -/
theorem C112_unchanged {μ : Measure Ω} (rnd : Ω → ForestRnd d) (X : List (Point d))
    (Y : List ℝ) (hXY : X.length = Y.length) (m : ℕ) (ratio : ℝ)
    (hc : TreeDraws μ m X.length ⌊(X.length : ℝ) * ratio⌋₊
      fun ω t => (rnd ω).sample t X.length ⌊(X.length : ℝ) * ratio⌋₊)
    (depth_max size_min_leaf num_features : ℤ) (rep split_random : Bool)
    (i : ℕ) (hi : i < X.length) :
    ENNReal.ofReal ((((X.length : ℝ) - 1) / X.length) ^ (⌊(X.length : ℝ) * ratio⌋₊ * m)) ≤
      μ {ω | ∀ y, getGenericTrees (rnd ω) X (Y.set i y) m depth_max size_min_leaf ratio rep
          num_features split_random =
        getGenericTrees (rnd ω) X Y m depth_max size_min_leaf ratio rep num_features
          split_random} := by
  generalize hk : ⌊(X.length : ℝ) * ratio⌋₊ = k at *
  obtain ⟨J, hJ, hJc, hp⟩ := hc
  have hn0 : 0 < X.length := by omega
  have h1 : ENNReal.ofReal ((((X.length : ℝ) - 1) / X.length) ^ (k * m)) =
      μ {ω | J ω ∈ Finset.univ.filter fun v : Fin m → Fin k → Fin X.length =>
        ∀ t s, v t s ≠ ⟨i, hi⟩} := by
    rw [measure_choices hJ _ (fun v _ => hp v), count_avoid_all,
      show (((X.length : ENNReal) ^ k) ^ m)⁻¹ = (((X.length ^ k) ^ m : ℕ) : ENNReal)⁻¹ by
        push_cast; rfl,
      ratio_ofReal (pow_pos (pow_pos hn0 k) m)]
    congr 1
    rw [pow_mul, div_pow, div_pow, Nat.cast_pow, Nat.cast_pow, Nat.cast_pow, Nat.cast_pow,
      Nat.cast_sub hn0, Nat.cast_one]
  rw [h1]
  refine measure_mono fun ω hω y => ?_
  simp only [Set.mem_setOf_eq, Finset.mem_filter, Finset.mem_univ, true_and] at hω
  have hs : ∀ t < m, subsample ((rnd ω).sample t) X (Y.set i y) ratio rep =
      subsample ((rnd ω).sample t) X Y ratio rep := by
    intro t ht
    refine subsample_set _ X Y hXY ratio rep i y ?_
    rw [hk]
    have := hJc ω ⟨t, ht⟩
    simp only at this
    rw [this, List.mem_ofFn]
    rintro ⟨s, hs⟩
    exact hω ⟨t, ht⟩ s (Fin.ext hs)
  have hm : (List.range m).mapM (fun k => do
        let (X_, Y_) ← subsample ((rnd ω).sample k) X (Y.set i y) ratio rep
        growTree ((rnd ω).tree k) X_ Y_ depth_max size_min_leaf num_features split_random) =
      (List.range m).mapM (fun k => do
        let (X_, Y_) ← subsample ((rnd ω).sample k) X Y ratio rep
        growTree ((rnd ω).tree k) X_ Y_ depth_max size_min_leaf num_features split_random) :=
    mapM_congr_on fun t ht => by rw [hs t (List.mem_range.1 ht)]
  simp only [getGenericTrees, List.length_set, Int.toNat_natCast, hm]

/-- C112. The same for `get_random_forest`, where every tree draws as many rows as there are. -/
theorem C112_forest {μ : Measure Ω} (rnd : Ω → ForestRnd d) (X : List (Point d))
    (Y : List ℝ) (hXY : X.length = Y.length) (m : ℕ)
    (hc : TreeDraws μ m X.length X.length fun ω t => (rnd ω).sample t X.length X.length)
    (depth_max size_min_leaf num_features : ℤ) (i : ℕ) (hi : i < X.length) :
    ENNReal.ofReal ((((X.length : ℝ) - 1) / X.length) ^ (X.length * m)) ≤
      μ {ω | ∀ y, getRandomForest (rnd ω) X (Y.set i y) m depth_max size_min_leaf num_features =
        getRandomForest (rnd ω) X Y m depth_max size_min_leaf num_features} := by
  have hk : ⌊(X.length : ℝ) * 1⌋₊ = X.length := by simp
  have h := C112_unchanged rnd X Y hXY m 1 (by rw [hk]; exact hc) depth_max size_min_leaf
    num_features true false i hi
  rw [hk] at h
  refine h.trans (measure_mono fun ω hω y => ?_)
  have h1 := hω y
  simp only [getGenericTrees, if_true, pyAssert, if_pos (one_pos : (1 : ℝ) > 0), bind,
    Except.bind] at h1
  simpa only [getRandomForest, pyAssert, bind, Except.bind] using h1

/-! ### Cases -/

/-- Draws with replacement exist. -/
example : ∃ (μ : Measure (Fin 3 → Fin 3)) (c : (Fin 3 → Fin 3) → List ℕ),
    WithReplacement μ 3 3 c := by
  refine ⟨((3 : ENNReal) ^ 3)⁻¹ • Measure.count, fun v => List.ofFn fun t => (v t : ℕ), id,
    measurable_id, fun _ => rfl, fun v => ?_⟩
  simp

/-- And draws of five trees. -/
example : ∃ (μ : Measure (Fin 5 → Fin 3 → Fin 3)) (r : (Fin 5 → Fin 3 → Fin 3) → ForestRnd 1),
    TreeDraws μ 5 3 3 fun ω t => (r ω).sample t 3 3 := by
  refine ⟨(((3 : ENNReal) ^ 3) ^ 5)⁻¹ • Measure.count, fun v =>
    ⟨fun t _ _ => if h : t < 5 then List.ofFn fun s => (v ⟨t, h⟩ s : ℕ) else [],
      fun _ _ => ⟨fun _ => [], fun _ _ _ => [], fun _ => 0⟩⟩, id, measurable_id, fun v t => ?_,
    fun v => ?_⟩
  · simp
  · simp

/-- Draws of two out of three without replacement. -/
example : ∃ (μ : Measure {v : Fin 2 → Fin 3 // Function.Injective v})
    (c : {v : Fin 2 → Fin 3 // Function.Injective v} → List ℕ), WithoutReplacement μ 3 2 c := by
  refine ⟨(6 : ENNReal)⁻¹ • Measure.count, fun v => List.ofFn fun t => (v.1 t : ℕ), Subtype.val,
    measurable_subtype_coe, fun _ => rfl, fun v => v.2, fun v hv => ?_⟩
  rw [show Subtype.val ⁻¹' {v} = {(⟨v, hv⟩ : {v : Fin 2 → Fin 3 // Function.Injective v})} by
    ext w
    simp [Subtype.ext_iff]]
  simp [Nat.descFactorial]

/-- With three rows, a row is missing from a sample with probability 8/27. -/
example {μ : Measure Ω} (choice : Ω → ℕ → ℕ → List ℕ)
    (hc : WithReplacement μ 3 3 fun ω => choice ω 3 3) :
    μ {ω | ∃ X' Y', subsample (choice ω) [fun _ : Fin 1 => (0 : ℝ), fun _ => 1, fun _ => 2]
      [5, 6, 7] 1 true = .ok (X', Y') ∧ (fun _ => 1) ∉ X'} = ENNReal.ofReal (8 / 27) := by
  have hk : ⌊(3 : ℝ) * 1⌋₊ = 3 := by norm_num
  have h := C112_left_out choice [fun _ : Fin 1 => (0 : ℝ), fun _ => 1, fun _ => 2]
    (by simp [funext_iff]) [5, 6, 7] rfl 1 one_pos (by simpa using hc) 1 (by simp)
  simp only [List.length_cons, List.length_nil, List.getElem_cons_succ, List.getElem_cons_zero] at h
  rw [h]
  norm_num

end Verif.Props
