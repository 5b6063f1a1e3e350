import Verif.Lemmas.Overflow
import Verif.Props.Rounded

/-! # C110: sampling, normalisation and curves when numbers may overflow -/

namespace Verif.Props

open Verif.Spec Verif.Lemmas Verif.Constants

variable {fl : ℝ → ℝ}

private theorem grid_same (h : Nearest fl) {d : ℕ} {B : Bounds d} (hB : FiniteBox B)
    (hw : ∀ i, fl ((B i).2 - (B i).1) < 2 ^ 1024)
    (hg : ∀ i, (B i).1 = (B i).2 ∨ (2 : ℝ) ^ (-960 : ℤ) ≤ (B i).2 - (B i).1) {n : ℤ}
    (hn : n ≤ 2 ^ 50) :
    Overflow.getSamplesGrid fl B n =
      (Rounded.getSamplesGrid fl B n).map (List.map fun p j => Flt.fin (p j)) := by
  have hall : ∀ r ∈ List.ofFn B, r.1 ≤ r.2 := by
    intro r hr
    obtain ⟨i, rfl⟩ := List.mem_ofFn.1 hr
    exact (hB.1 i).2.2
  simp only [Overflow.getSamplesGrid, Overflow.getGrids, Rounded.getSamplesGrid, Rounded.getGrids,
    pyAssert, if_pos hall, bind, Except.bind]
  by_cases h0 : n < 0
  · cases hl : List.ofFn B with
    | nil => rfl
    | cons r t =>
      simp [List.mapM_cons, Overflow.linspace, Rounded.linspace, h0, bind, Except.bind, Except.map]
  · obtain ⟨k, rfl⟩ := Int.eq_ofNat_of_zero_le (not_lt.1 h0)
    have hk : k ≤ 2 ^ 50 := by exact_mod_cast hn
    rw [overflow_mapM_linspace, rounded_mapM_linspace]
    simp only
    rw [show (List.ofFn B).map (fun r => Overflow.linspaceNat fl r.1 r.2 k) =
      ((List.ofFn B).map fun r => Rounded.linspaceNat fl r.1 r.2 k).map (List.map Flt.fin) by
        rw [List.map_map]
        apply List.map_congr_left
        intro r hr
        obtain ⟨i, rfl⟩ := List.mem_ofFn.1 hr
        exact linspaceNat_fin h (hB.1 i).1 (hB.1 i).2.1 (hg i) (hB.2 i).1 (hB.2 i).2 (hw i) hk,
      meshgridRows_map]
    cases UtilsCommon.meshgridRows ((List.ofFn B).map fun r => Rounded.linspaceNat fl r.1 r.2 k) with
    | error e => rfl
    | ok rows => exact rowsToPoints_map Flt.fin d rows

/-- C110. As long as no side of the search space is too wide for a double, uniform samples, Sobol and
Halton points and grids are what they are with unbounded exponents: C103 holds for them. -/
theorem C110_same (h : Nearest fl) {d : ℕ} (B : Bounds d) (hB : FiniteBox B)
    (hw : ∀ i, fl ((B i).2 - (B i).1) < 2 ^ 1024) (r : BaseBo.Draws d) (hr : DoubleDraws r)
    (m : String) (n : ℤ)
    (hm : m = "grid" → n ≤ 2 ^ 50 ∧
      ∀ i, (B i).1 = (B i).2 ∨ (2 : ℝ) ^ (-960 : ℤ) ≤ (B i).2 - (B i).1)
    (hg : m ≠ "gaussian") :
    Overflow.getSamples fl B r m n =
      (Rounded.getSamples fl B r m n).map (List.map fun p j => Flt.fin (p j)) := by
  obtain ⟨hu, hso, hh⟩ := hr
  have sc : ∀ (j : Fin d) (u : ℝ), u ∈ Double ∧ 0 ≤ u ∧ u < 1 → _ := fun j u hu =>
    scale_fin h (hB.1 j).1 (hB.1 j).2.1 (hB.1 j).2.2 hu.1 hu.2.1 hu.2.2 (hB.2 j).1 (hB.2 j).2 (hw j)
  have qmc : ∀ u : ℕ → Fin d → ℝ, (∀ k j, u k j ∈ Double ∧ 0 ≤ u k j ∧ u k j < 1) →
      Overflow.getSamplesQmc fl B u n =
        (Rounded.getSamplesQmc fl B u n).map (List.map fun p j => Flt.fin (p j)) := by
    intro u hu
    simp only [Overflow.getSamplesQmc, Rounded.getSamplesQmc]
    split
    · rfl
    · simp only [Except.map, List.map_map]
      congr 1
      apply List.map_congr_left
      intro i _
      funext j
      exact sc j _ (hu i j)
  by_cases hmem : m ∈ ALLOWED_SAMPLING_METHOD
  · simp only [Overflow.getSamples, Rounded.getSamples, pyAssert, hmem, if_true, bind, Except.bind,
      pure, Except.pure, if_neg hg]
    split
    · rename_i hgr
      exact grid_same h hB hw (hm hgr).2 (hm hgr).1
    split
    · have hfin : ∀ j, Overflow.IsFinite (Overflow.width fl B j) := by
        intro j
        rw [Overflow.width, width_fin h (hB.1 j).2.2 (hw j)]
        trivial
      simp only [Overflow.getSamplesUniform]
      rw [if_neg (by rintro ⟨-, j, hj⟩; exact hj (hfin j))]
      simp only [Except.map, Rounded.getSamplesUniform, List.map_map]
      congr 1
      apply List.map_congr_left
      intro i _
      funext j
      rw [add_fin_comm, mul_comm_fin]
      refine (sc j _ (hu _)).trans ?_
      simp only [Function.comp, Flt.fin.injEq]
      rw [add_comm, mul_comm]
    split
    · exact qmc _ hso
    split
    · exact qmc _ hh
    · rfl
  · simp only [Overflow.getSamples, Rounded.getSamples, pyAssert, hmem, if_false, bind, Except.bind]
    rfl

private theorem clip_fin {a : Flt} (ha : a ≠ .nan) {lo hi : ℝ} (hle : lo ≤ hi) :
    ∃ x, Overflow.clip a lo hi = .fin x ∧ lo ≤ x ∧ x ≤ hi := by
  cases a with
  | fin x => exact ⟨_, rfl, le_min (le_max_right _ _) hle, min_le_right _ _⟩
  | pinf => exact ⟨hi, rfl, hle, le_rfl⟩
  | ninf => exact ⟨_, rfl, le_min le_rfl hle, min_le_right _ _⟩
  | nan => exact absurd rfl ha

private theorem gaussian_fin (h : Nearest fl) {lo hi z : ℝ} (hle : lo ≤ hi)
    (hw : fl (hi - lo) < 2 ^ 1024) (hs : |fl (hi + lo)| < 2 ^ 1024) :
    ∃ x, Overflow.clip (Overflow.add fl (Overflow.mul fl (.fin z)
      (Overflow.divPos fl (Overflow.sub fl (.fin hi) (.fin lo)) (.fin 4)))
        (Overflow.divPos fl (Overflow.add fl (.fin hi) (.fin lo)) (.fin 2))) lo hi = .fin x ∧
      lo ≤ x ∧ x ≤ hi := by
  refine clip_fin ?_ hle
  have w0 : 0 ≤ fl (hi - lo) := fl_nonneg h (sub_nonneg.2 hle)
  have hsd : fl (hi + lo) ∈ Double := h.mem _
  have hsa : |fl (hi + lo)| ∈ Double := by
    rcases abs_choice (fl (hi + lo)) with e | e <;> rw [e]
    · exact hsd
    · exact double_neg hsd
  rw [width_fin h hle hw, divPos_fin, round_fin_of_le h (h.mem (hi - lo)) _ hw, add_fin,
    round_fin hs, divPos_fin, round_fin_of_le h hsa _ hs, mul_fin]
  · have hc := round_cases (fl := fl) (z * fl (fl (hi - lo) / 4))
    cases hr : Overflow.round fl (z * fl (fl (hi - lo) / 4)) with
    | nan => exact absurd hr hc
    | fin x =>
      rw [add_fin]
      exact round_cases _
    | pinf => simp [Overflow.add, Flt.add, Overflow.roundF]
    | ninf => simp [Overflow.add, Flt.add, Overflow.roundF]
  · rw [abs_div, abs_of_pos (by norm_num : (0 : ℝ) < 2)]
    exact div_le_self (abs_nonneg _) (by norm_num)
  · rw [abs_of_nonneg (by positivity)]
    exact div_le_self w0 (by norm_num)

/-- C110 (partial). The claim is that samples are numbers in the search space. It holds as long as no
side is too wide for a double (and, for normal samples, the sum of its ends is not too large); for
wider sides see `C110_overflow`. -/
theorem C110_in_box_partial (h : Nearest fl) {d : ℕ} (B : Bounds d) (hB : FiniteBox B)
    (hw : ∀ i, fl ((B i).2 - (B i).1) < 2 ^ 1024) (r : BaseBo.Draws d) (hr : DoubleDraws r)
    (m : String) (n : ℤ)
    (hm : m = "grid" → n ≤ 2 ^ 50 ∧
      ∀ i, (B i).1 = (B i).2 ∨ (2 : ℝ) ^ (-960 : ℤ) ≤ (B i).2 - (B i).1)
    (hg : m = "gaussian" → ∀ i, |fl ((B i).2 + (B i).1)| < 2 ^ 1024)
    (pts : List (Fin d → Flt)) (hs : Overflow.getSamples fl B r m n = .ok pts) :
    ∀ p ∈ pts, FiniteInBox B p := by
  by_cases hgm : m = "gaussian"
  · subst hgm
    rw [overflow_gaussian, Except.ok.injEq] at hs
    subst hs
    intro p hp i
    obtain ⟨k, -, rfl⟩ := List.mem_map.1 hp
    exact gaussian_fin h (hB.1 i).2.2 (hw i) (hg rfl i)
  · rw [C110_same h B hB hw r hr m n hm hgm] at hs
    cases hq : Rounded.getSamples fl B r m n with
    | error e => rw [hq] at hs; cases hs
    | ok q =>
      rw [hq] at hs
      simp only [Except.map, Except.ok.injEq] at hs
      subst hs
      intro p hp i
      obtain ⟨x, hx, rfl⟩ := List.mem_map.1 hp
      have := C103_in_box h B hB.1 r hr m n hm q hq x hx i
      exact ⟨x i, rfl, this.1, this.2⟩

/-- C110. On a search space with a side too wide for a double: uniform sampling raises an
`OverflowError`; in every Sobol or Halton point that coordinate is infinite (NaN for the draw 0); in
every grid point it is NaN, infinite or the upper end; and every normal sample sits at an end of the
side (NaN for the draw 0). -/
theorem C110_overflow (h : Nearest fl) {d : ℕ} (B : Bounds d) (hB : FiniteBox B)
    (r : BaseBo.Draws d) (hr : DoubleDraws r) (j : Fin d)
    (hj : 2 ^ 1024 ≤ fl ((B j).2 - (B j).1)) (n : ℤ) :
    (0 < n → Overflow.getSamples fl B r "uniform" n = .error .overflow) ∧
    (∀ m, m = "sobol" ∨ m = "halton" → ∀ pts, Overflow.getSamples fl B r m n = .ok pts →
      ∀ p ∈ pts, p j = .pinf ∨ p j = .nan) ∧
    (∀ pts, Overflow.getSamples fl B r "grid" n = .ok pts → 2 ≤ n →
      ∀ p ∈ pts, p j = .nan ∨ p j = .pinf ∨ p j = .fin (B j).2) ∧
    ∃ pts, Overflow.getSamples fl B r "gaussian" n = .ok pts ∧ pts.length = n.toNat ∧
      ∀ (i : ℕ) p, pts[i]? = some p →
        p j = if 0 < r.normal (i * d + j) then .fin (B j).2
          else if r.normal (i * d + j) < 0 then .fin (B j).1 else .nan := by
  obtain ⟨-, hso, hh⟩ := hr
  have hwd : Overflow.width fl B j = .pinf := width_inf hj
  have hpos : (0 : ℝ) < 2 ^ 1024 := overflow_pos
  have qmc : ∀ u : ℕ → Fin d → ℝ, (∀ k j, u k j ∈ Double ∧ 0 ≤ u k j ∧ u k j < 1) →
      ∀ pts, Overflow.getSamplesQmc fl B u n = .ok pts → ∀ p ∈ pts, p j = .pinf ∨ p j = .nan := by
    intro u hu pts hp p hpp
    simp only [Overflow.getSamplesQmc] at hp
    split at hp
    · cases hp
    · rw [Except.ok.injEq] at hp
      subst hp
      obtain ⟨i, -, rfl⟩ := List.mem_map.1 hpp
      simp only [hwd, Overflow.mul, Overflow.signedInf]
      rcases (hu i j).2.1.eq_or_lt with h0 | h0
      · right
        simp [← h0, Overflow.add, Flt.add, Overflow.roundF]
      · left
        simp [h0, Overflow.add, Flt.add, Overflow.roundF]
  refine ⟨?_, ?_, ?_, ?_⟩
  · intro hn
    rw [overflow_uniform, Overflow.getSamplesUniform, if_pos ⟨hn, j, by rw [hwd]; exact id⟩]
  · rintro m (rfl | rfl) pts hp
    · rw [overflow_sobol] at hp
      exact qmc _ hso pts hp
    · rw [overflow_halton] at hp
      exact qmc _ hh pts hp
  · intro pts hp hn
    obtain ⟨k, rfl⟩ := Int.eq_ofNat_of_zero_le (by omega : 0 ≤ n)
    obtain ⟨k, rfl⟩ : ∃ k' : ℕ, k = k' + 2 := ⟨k - 2, by omega⟩
    have hall : ∀ r ∈ List.ofFn B, r.1 ≤ r.2 := by
      intro r hr
      obtain ⟨i, rfl⟩ := List.mem_ofFn.1 hr
      exact (hB.1 i).2.2
    rw [overflow_grid] at hp
    simp only [Overflow.getSamplesGrid, Overflow.getGrids, pyAssert, if_pos hall, bind,
      Except.bind, overflow_mapM_linspace] at hp
    cases hm : UtilsCommon.meshgridRows
        ((List.ofFn B).map fun r => Overflow.linspaceNat fl r.1 r.2 (k + 2)) with
    | error e => rw [hm] at hp; cases hp
    | ok rows =>
      rw [hm] at hp
      simp only at hp
      have hrows := meshgridRows_mem hm
      have hlen : ∀ r ∈ rows, r.length = d := by
        intro r hr
        rw [(hrows r hr).length_eq]
        simp
      obtain ⟨pts', g1, -, g3⟩ := rowsToPoints_ok rows hlen
      rw [g1, Except.ok.injEq] at hp
      subst hp
      intro p hpp
      obtain ⟨i, hi⟩ := List.mem_iff_getElem?.1 hpp
      obtain ⟨row, hrow, hjj⟩ := g3 i p hi
      have hf := hrows row (List.mem_of_getElem? hrow)
      have hjl : j.val < row.length := by
        rw [hlen row (List.mem_of_getElem? hrow)]; exact j.isLt
      have hmem := (List.forall₂_iff_get.1 hf).2 j.val hjl (by simp)
      have hv := hjj j
      rw [List.getElem?_eq_getElem hjl, Option.some.injEq] at hv
      simp only [List.get_eq_getElem, hv, List.getElem_map, List.getElem_ofFn,
        Overflow.linspaceNat, List.mem_append, List.mem_map, List.mem_singleton] at hmem
      rcases hmem with ⟨q, -, hq⟩ | hq
      · rw [← hq]
        simp only [Overflow.linspaceEntry, width_inf hj, Overflow.divPos]
        rw [if_neg (by simp)]
        simp only [Overflow.mul, Overflow.signedInf]
        rcases (Nat.cast_nonneg (α := ℝ) q).eq_or_lt with h0 | h0
        · left
          simp [← h0, Overflow.add, Flt.add, Overflow.roundF]
        · right; left
          simp [h0, Overflow.add, Flt.add, Overflow.roundF]
      · exact Or.inr (Or.inr hq)
  · refine ⟨_, overflow_gaussian B r n, by simp [Overflow.getSamplesGaussian], ?_⟩
    intro i p hp
    obtain ⟨blo, bhi⟩ := hB.2 j
    obtain ⟨dlo, dhi, hle⟩ := hB.1 j
    have hi0 : 0 < (B j).2 := by
      by_contra hc
      have h1 : (B j).2 - (B j).1 ≤ -(B j).1 := by linarith
      have h2 := fl_le_of_le h (double_neg dlo) h1
      have h3 := (abs_lt.1 blo).1
      linarith
    have lo0 : (B j).1 < 0 := by
      by_contra hc
      have h1 : (B j).2 - (B j).1 ≤ (B j).2 := by linarith
      have h2 := fl_le_of_le h dhi h1
      have h3 := (abs_lt.1 bhi).2
      linarith
    have s1 : fl ((B j).2 + (B j).1) ≤ (B j).2 := fl_le_of_le h dhi (by linarith)
    have s2 : (B j).1 ≤ fl ((B j).2 + (B j).1) := le_fl_of_le h dlo (by linarith)
    have hs : |fl ((B j).2 + (B j).1)| < 2 ^ 1024 :=
      abs_lt.2 ⟨(abs_lt.1 blo).1.trans_le s2, s1.trans_lt (abs_lt.1 bhi).2⟩
    have hmean : ∃ x, Overflow.divPos fl (Overflow.add fl (.fin (B j).2) (.fin (B j).1)) (.fin 2) =
        .fin x := by
      have hsd : fl ((B j).2 + (B j).1) ∈ Double := h.mem _
      have hsa : |fl ((B j).2 + (B j).1)| ∈ Double := by
        rcases abs_choice (fl ((B j).2 + (B j).1)) with e | e <;> rw [e]
        · exact hsd
        · exact double_neg hsd
      rw [add_fin, round_fin hs, divPos_fin, round_fin_of_le h hsa _ hs]
      · exact ⟨_, rfl⟩
      · rw [abs_div, abs_of_pos (by norm_num : (0 : ℝ) < 2)]
        exact div_le_self (abs_nonneg _) (by norm_num)
    obtain ⟨x, hx⟩ := hmean
    simp only [Overflow.getSamplesGaussian, List.getElem?_map, Option.map_eq_some_iff] at hp
    obtain ⟨k, hk, rfl⟩ := hp
    have hk' : k = i := by
      obtain ⟨h1, h2⟩ := List.getElem?_eq_some_iff.1 hk
      simpa using h2.symm
    subst hk'
    simp only [hx, hwd]
    simp only [Overflow.divPos, Overflow.mul, Overflow.signedInf]
    generalize r.normal (k * d + j) = z
    rcases lt_trichotomy z 0 with hz | hz | hz
    · simp [hz, not_lt.2 hz.le, Overflow.add, Flt.add, Overflow.roundF, Overflow.clip,
        min_eq_left hle]
    · simp [hz, Overflow.add, Flt.add, Overflow.roundF, Overflow.clip]
    · simp [hz, Overflow.add, Flt.add, Overflow.roundF, Overflow.clip]

private theorem big_mem : (2 : ℝ) ^ 1023 ∈ Double := by
  have := double_half (e := 1023) (by norm_num)
  exact_mod_cast this

private theorem big_pos : (0 : ℝ) < 2 ^ 1023 := by positivity

private theorem big_lt : (2 : ℝ) ^ 1023 < 2 ^ 1024 :=
  pow_lt_pow_right₀ (by norm_num) (by norm_num)

private theorem big_double (h : Nearest fl) : fl ((2 : ℝ) ^ 1023 + 2 ^ 1023) = 2 ^ 1024 := by
  have e : (2 : ℝ) ^ 1023 + 2 ^ 1023 = 2 ^ 1024 := by
    rw [pow_succ (2 : ℝ) 1023, mul_two]
  rw [e]
  refine fl_of_mem h ?_
  have := double_half (e := 1024) (by norm_num)
  exact_mod_cast this

/-- C110. Such search spaces exist among those that the code accepts: of `[-2^1023, 2^1023]` the first
Sobol point (for the draw 1/2) is infinite, outside of the search space. -/
theorem C110_violated (h : Nearest fl) : ∃ (B : Bounds 1) (r : BaseBo.Draws 1)
    (pts : List (Fin 1 → Flt)), FiniteBox B ∧ DoubleDraws r ∧
      Overflow.getSamples fl B r "sobol" 1 = .ok pts ∧ pts = [fun _ => .pinf] ∧
      ∀ p ∈ pts, ¬ FiniteInBox B p := by
  have hd := big_mem
  have hp := big_pos
  have hlt := big_lt
  have hw : fl ((2 : ℝ) ^ 1023 - -2 ^ 1023) = 2 ^ 1024 := by rw [sub_neg_eq_add, big_double h]
  have hhalf : (1 / 2 : ℝ) ∈ Double := by
    have := double_half (e := -1) (by norm_num)
    rw [zpow_neg_one] at this
    rwa [one_div]
  have hu : (1 / 2 : ℝ) ∈ Double ∧ (0 : ℝ) ≤ 1 / 2 ∧ (1 / 2 : ℝ) < 1 :=
    ⟨hhalf, by norm_num, by norm_num⟩
  refine ⟨fun _ => (-2 ^ 1023, 2 ^ 1023), ⟨fun _ => 1 / 2, fun _ => 0, fun _ _ => 1 / 2,
    fun _ _ => 1 / 2⟩, [fun _ => .pinf], ⟨fun _ => ⟨double_neg hd, hd, ?_⟩, fun _ => ?_⟩,
    ⟨fun _ => hu, fun _ _ => hu, fun _ _ => hu⟩, ?_, rfl, ?_⟩
  · exact (neg_nonpos.2 hp.le).trans hp.le
  · show |-(2 : ℝ) ^ 1023| < 2 ^ 1024 ∧ |(2 : ℝ) ^ 1023| < 2 ^ 1024
    rw [abs_neg, abs_of_pos hp]
    exact ⟨hlt, hlt⟩
  · rw [overflow_sobol, Overflow.getSamplesQmc, if_neg (by norm_num), Except.ok.injEq]
    have hwd : ∀ j, Overflow.width fl (fun _ : Fin 1 => ((-2 ^ 1023 : ℝ), (2 ^ 1023 : ℝ))) j = .pinf :=
      fun j => width_inf (by rw [hw])
    simp [hwd, Overflow.mul, Overflow.signedInf, Overflow.add, Flt.add, Overflow.roundF]
  · intro p hp hb
    rw [List.mem_singleton] at hp
    subst hp
    obtain ⟨x, hx, -⟩ := hb 0
    cases hx

/-! ### Normalisation -/

/-- C110. Responses are normalised as with unbounded exponents (C104) unless their range is too large
for a double. -/
theorem C110_normalize_partial (h : Nearest fl) (Y : List ℝ) (hY : ∀ y ∈ Y, y ∈ Double) (lo hi : ℝ)
    (hlo : lo ∈ Y ∧ ∀ y ∈ Y, lo ≤ y) (hhi : hi ∈ Y ∧ ∀ y ∈ Y, y ≤ hi)
    (hw : fl (hi - lo) < 2 ^ 1024) :
    ∃ out, Rounded.normalizeMinMax fl Y = .ok out ∧
      Overflow.normalizeMinMax fl Y = .ok (out.map Flt.fin) := by
  have hM : npMax Y = .ok hi := npMax_ok.2 hhi
  have hm : npMin Y = .ok lo := npMin_ok.2 hlo
  simp only [Rounded.normalizeMinMax, Overflow.normalizeMinMax, hM, hm, bind, Except.bind, pure,
    Except.pure]
  by_cases hne : hi ≠ lo
  · simp only [hne, if_true, ne_eq, not_false_eq_true, Except.ok.injEq, exists_eq_left',
      List.map_map]
    apply List.map_congr_left
    intro y hy
    have hle : lo ≤ hi := hlo.2 hi hhi.1
    have hlt : lo < hi := lt_of_le_of_ne hle (Ne.symm hne)
    have hyw : fl (y - lo) ≤ fl (hi - lo) := fl_mono h (by linarith [hhi.2 y hy])
    have hy0 : 0 ≤ fl (y - lo) := fl_nonneg h (sub_nonneg.2 (hlo.2 y hy))
    have hw0 : 0 < fl (hi - lo) := fl_sub_pos h (hY hi hhi.1) (hY lo hlo.1) hlt
    have d1 : (1 : ℝ) ∈ Double := by
      have := double_nat (m := 1) (by norm_num)
      simpa using this
    have d10 : (10 : ℝ) ∈ Double := by
      have := double_nat (m := 10) (by norm_num)
      simpa using this
    have hb : (10 : ℝ) < 2 ^ 1024 :=
      lt_of_lt_of_le (by norm_num : (10 : ℝ) < 2 ^ 4) (pow_le_pow_right₀ (by norm_num) (by norm_num))
    have hq : |fl (y - lo) / fl (hi - lo)| ≤ 1 := by
      rw [abs_of_nonneg (by positivity)]
      exact (div_le_one hw0).2 hyw
    have hq' := abs_fl_le h d1 hq
    simp only [Function.comp]
    rw [width_fin h hle hw, width_fin h (hlo.2 y hy) (hyw.trans_lt hw), divPos_fin,
      round_fin_of_le h d1 hq (lt_trans (by norm_num) hb), mul_fin, round_fin_of_le h d10 _ hb]
    rw [MULTIPLIER_RESPONSE, abs_mul]
    norm_num
    linarith
  · simp only [hne, if_false, Except.ok.injEq, exists_eq_left']

/-- C110. If the range of the responses is too large for a double, the least response becomes 0 and
the greatest NaN; every response is 0 or NaN. -/
theorem C110_normalize_overflow (h : Nearest fl) (Y : List ℝ) (hY : ∀ y ∈ Y, y ∈ Double ∧ |y| < 2 ^ 1024)
    (lo hi : ℝ) (hlo : lo ∈ Y ∧ ∀ y ∈ Y, lo ≤ y) (hhi : hi ∈ Y ∧ ∀ y ∈ Y, y ≤ hi)
    (hw : 2 ^ 1024 ≤ fl (hi - lo)) :
    ∃ out, Overflow.normalizeMinMax fl Y = .ok out ∧ out.length = Y.length ∧
      ∀ (i : ℕ) (y : ℝ) (v : Flt), Y[i]? = some y → out[i]? = some v →
        v = if fl (y - lo) < 2 ^ 1024 then .fin 0 else .nan := by
  have hM : npMax Y = .ok hi := npMax_ok.2 hhi
  have hm : npMin Y = .ok lo := npMin_ok.2 hlo
  have hp := overflow_pos
  have hne : hi ≠ lo := by
    rintro rfl
    rw [sub_self, fl_zero h] at hw
    exact absurd hw (not_le.2 hp)
  refine ⟨Y.map (fun y => Overflow.mul fl (Overflow.divPos fl (Overflow.sub fl (.fin y) (.fin lo))
    (Overflow.sub fl (.fin hi) (.fin lo))) (.fin MULTIPLIER_RESPONSE)), by
    simp only [Overflow.normalizeMinMax, hM, hm, bind, Except.bind, pure, Except.pure, hne, ne_eq,
      not_false_eq_true, if_true], by simp, ?_⟩
  intro i y v hy hv
  rw [List.getElem?_map, hy, Option.map_some, Option.some.injEq] at hv
  have hyl : lo ≤ y := hlo.2 y (List.mem_of_getElem? hy)
  rw [← hv, width_inf hw]
  split
  · rename_i hl
    rw [width_fin h hyl hl]
    simp only [Overflow.divPos]
    rw [mul_fin, zero_mul, round_fin (by rw [fl_zero h, abs_zero]; exact hp), fl_zero h]
  · rename_i hl
    rw [width_inf (not_lt.1 hl)]
    rfl

/-! ### Curves -/

/-- C110. The means of the running minima are what they are with unbounded exponents (C105) if every
response is at most `2^m` in size and `2^m` times the number of rounds is below `2^1024`. -/
theorem C110_minima_partial (h : Nearest fl) (o : Rounded.SumOrder) (Y : Arr2 Flt)
    (ho : o.Covers Y.rows.length) (h1 : 1 ≤ Y.rows.length) (h53 : Y.rows.length ≤ 2 ^ 53) {m : ℤ}
    (hm : -1074 ≤ m) (hb : (Y.rows.length : ℝ) * (2 : ℝ) ^ m < 2 ^ 1024) (n : ℕ)
    (hY : ∀ row ∈ Y.rows, ∀ a ∈ row, ∃ x, a = .fin x ∧ |x| ≤ (2 : ℝ) ^ m) :
    Overflow.getMinimum fl o Y n = Rounded.getMinimum fl o Y n := by
  have hs : sliceBound Y.ncols n = n := by simp [sliceBound]
  by_cases hc : (Y.ncols : ℤ) > (n : ℤ)
  · have hn : n < Y.ncols := by exact_mod_cast hc
    simp only [Overflow.getMinimum, Rounded.getMinimum, pyAssert, hc, if_true, bind, Except.bind,
      pure, Except.pure, hs]
    congr 2
    apply List.map_congr_left
    intro j hj
    rw [minima_column Y n j (List.mem_range.1 hj) hn]
    by_cases h0 : n + j = 0
    · refine overflow_meanF_pinf _ ?_ o (by simpa using ho)
      intro a ha
      obtain ⟨row, -, rfl⟩ := List.mem_map.1 ha
      rw [h0]
      rfl
    · have hx : ∀ row ∈ Y.rows, ∃ x, UtilsCommon.accMin Flt.pinf (row.take (n + j)) = .fin x ∧
          |x| ≤ (2 : ℝ) ^ m := by
        intro row hr
        obtain ⟨-, g2, g3⟩ := accMin_best (row.take (n + j))
        rcases g3 with g3 | g3
        · exact hY row hr _ (List.mem_of_mem_take g3)
        · exfalso
          have hl := Y.wf row hr
          have hne : row.take (n + j) ≠ [] := by
            intro he
            have := congrArg List.length he
            rw [List.length_take, List.length_nil] at this
            omega
          obtain ⟨a, ha⟩ := List.exists_mem_of_ne_nil _ hne
          obtain ⟨x, rfl, -⟩ := hY row hr a (List.mem_of_mem_take ha)
          rcases g2 _ ha with g | g
          · cases g
          · rw [g3] at g
            exact g
      choose! f hf using hx
      rw [show Y.rows.map (fun row => UtilsCommon.accMin Flt.pinf (row.take (n + j))) =
        (Y.rows.map f).map Flt.fin by
          rw [List.map_map]
          exact List.map_congr_left fun row hr => (hf row hr).1]
      refine overflow_meanF h hm _ ?_ o (by simpa using ho) (by simpa using h1) (by simpa using h53)
        (by simpa using hb)
      intro x hx
      obtain ⟨row, hr, rfl⟩ := List.mem_map.1 hx
      exact (hf row hr).2
  · simp only [Overflow.getMinimum, Rounded.getMinimum, pyAssert, hc, if_false, bind, Except.bind]

/-- C110. Two rounds with the finite minima `2^1023` have an infinite mean. -/
theorem C110_minima_overflow (h : Nearest fl) : ∃ (o : Rounded.SumOrder) (Y : Arr2 Flt),
    o.Covers Y.rows.length ∧ Overflow.getMinimum fl o Y 1 =
      .ok ([[.fin (2 ^ 1023), .fin (2 ^ 1023)], [.fin (2 ^ 1023), .fin (2 ^ 1023)]],
        [.pinf, .pinf]) := by
  refine ⟨.add (.entry 0) (.entry 1), ⟨[[.fin (2 ^ 1023), .fin (2 ^ 1023)],
    [.fin (2 ^ 1023), .fin (2 ^ 1023)]], 2, by simp⟩, List.Perm.refl _, ?_⟩
  generalize hM : (2 : ℝ) ^ 1023 = M
  have hr : Overflow.round fl (M + M) = .pinf := by
    rw [Overflow.round, ← hM, big_double h, if_pos le_rfl]
  have hmin : UtilsCommon.minimaRow [.fin M, .fin M] 1 = [.fin M, .fin M] := by
    have h1 : (Flt.fin M : Flt) < Flt.pinf := trivial
    have h2 : ¬ (Flt.fin M : Flt) < Flt.fin M := lt_irrefl M
    simp [UtilsCommon.minimaRow, UtilsCommon.accMin, UtilsCommon.runMin, sliceTo, sliceFrom,
      sliceBound, UtilsCommon.pyMin, h1, h2]
  simp only [Overflow.getMinimum, pyAssert, bind, Except.bind, pure, Except.pure]
  rw [if_pos (by norm_num)]
  simp [hmin, sliceBound, List.range_succ, UtilsCommon.column, Overflow.meanF, Overflow.sumF,
    add_fin, hr, Overflow.divPos]

/-! ### Cases -/

example : Overflow.normalizeMinMax roundUp [-2 ^ 1023, 0, 2 ^ 1023] = .ok [.fin 0, .fin 0, .nan] := by
  have h := roundUp_nearest
  have h1 : roundUp ((2 : ℝ) ^ 1023 - -2 ^ 1023) = 2 ^ 1024 := by rw [sub_neg_eq_add, big_double h]
  have hp := big_pos
  obtain ⟨out, e, hl, hv⟩ := C110_normalize_overflow h [-2 ^ 1023, 0, 2 ^ 1023] (by
    intro y hy
    simp only [List.mem_cons, List.not_mem_nil, or_false] at hy
    rcases hy with rfl | rfl | rfl
    · exact ⟨double_neg big_mem, by rw [abs_neg, abs_of_pos hp]; exact big_lt⟩
    · exact ⟨double_zero, by rw [abs_zero]; exact overflow_pos⟩
    · exact ⟨big_mem, by rw [abs_of_pos hp]; exact big_lt⟩) (-2 ^ 1023) (2 ^ 1023)
    ⟨by simp, by
      intro y hy
      simp only [List.mem_cons, List.not_mem_nil, or_false] at hy
      rcases hy with rfl | rfl | rfl
      · exact le_rfl
      · exact neg_nonpos.2 hp.le
      · exact (neg_nonpos.2 hp.le).trans hp.le⟩ ⟨by simp, by
      intro y hy
      simp only [List.mem_cons, List.not_mem_nil, or_false] at hy
      rcases hy with rfl | rfl | rfl
      · exact (neg_nonpos.2 hp.le).trans hp.le
      · exact hp.le
      · exact le_rfl⟩ h1.ge
  rw [e]
  match out, hl with
  | [a, b, c], _ =>
    have ha := hv 0 _ a rfl rfl
    have hb := hv 1 _ b rfl rfl
    have hc := hv 2 _ c rfl rfl
    rw [if_pos (by rw [sub_self, fl_zero h]; exact overflow_pos)] at ha
    rw [if_pos (by rw [zero_sub, neg_neg, fl_of_mem h big_mem]; exact big_lt)] at hb
    rw [if_neg (by rw [h1]; exact lt_irrefl _)] at hc
    rw [ha, hb, hc]

/-- The hypotheses of `C110_in_box_partial` hold for `[-1, 3]^2`, for every method but the grid. -/
example (r : BaseBo.Draws 2) (hr : DoubleDraws r) (m : String) (hm : m ≠ "grid") (n : ℤ)
    (pts : List (Fin 2 → Flt))
    (hs : Overflow.getSamples roundUp (fun _ => (-1, 3)) r m n = .ok pts) :
    ∀ p ∈ pts, FiniteInBox (fun _ => (-1, 3)) p := by
  have h := roundUp_nearest
  have hd : ∀ k : ℕ, k < 2 ^ 53 → (k : ℝ) ∈ Double := fun k hk => double_nat hk
  have h1 := hd 1 (by norm_num)
  have h2 := hd 2 (by norm_num)
  have h3 := hd 3 (by norm_num)
  have h4 := hd 4 (by norm_num)
  push_cast at h1 h2 h3 h4
  have hb : (4 : ℝ) < 2 ^ 1024 :=
    lt_of_lt_of_le (by norm_num : (4 : ℝ) < 2 ^ 3) (pow_le_pow_right₀ (by norm_num) (by norm_num))
  refine C110_in_box_partial h _ ⟨fun _ => ⟨double_neg h1, h3, by norm_num⟩, fun _ => ⟨?_, ?_⟩⟩
    (fun _ => ?_) r hr m n (fun e => absurd e hm) (fun _ _ => ?_) pts hs
  · simp only [abs_neg, abs_one]
    exact lt_trans (by norm_num) hb
  · simp only [abs_of_pos (by norm_num : (0 : ℝ) < 3)]
    exact lt_trans (by norm_num) hb
  · simp only [show (3 : ℝ) - -1 = 4 by norm_num, fl_of_mem h h4]
    exact hb
  · simp only [show (3 : ℝ) + -1 = 2 by norm_num, fl_of_mem h h2,
      abs_of_pos (by norm_num : (0 : ℝ) < 2)]
    exact lt_trans (by norm_num) hb

/-- The hypotheses of `C110_minima_partial` hold for two rounds of responses up to 2. -/
example : Overflow.getMinimum roundUp (.add (.entry 1) (.entry 0))
      ⟨[[.fin 2, .fin 1], [.fin 1, .fin (-2)]], 2, by simp⟩ 1 =
    Rounded.getMinimum roundUp (.add (.entry 1) (.entry 0))
      ⟨[[.fin 2, .fin 1], [.fin 1, .fin (-2)]], 2, by simp⟩ 1 := by
  refine C110_minima_partial roundUp_nearest (.add (.entry 1) (.entry 0)) _ ?_ (by simp) (by simp)
    (m := 1) (by norm_num) ?_ 1 ?_
  · exact List.Perm.swap 0 1 []
  · simp only [List.length_cons, List.length_nil, zpow_one]
    exact lt_of_lt_of_le (by norm_num : ((0 + 1 + 1 : ℕ) : ℝ) * 2 < 2 ^ 3)
      (pow_le_pow_right₀ (by norm_num) (by norm_num))
  · intro row hr a ha
    simp only [List.mem_cons, List.not_mem_nil, or_false] at hr
    rcases hr with rfl | rfl <;> simp only [List.mem_cons, List.not_mem_nil, or_false] at ha <;>
      rcases ha with rfl | rfl <;> exact ⟨_, rfl, by norm_num⟩

end Verif.Props
