import Verif.Model.Overflow
import Verif.Lemmas.Rounded
import Verif.Spec.Overflow

/-! # Overflow (lemmas for C110) -/

namespace Verif.Lemmas

open Verif.Spec Verif.Overflow

variable {fl : ℝ → ℝ}

theorem overflow_pos : (0 : ℝ) < 2 ^ 1024 := by positivity

theorem round_fin {x : ℝ} (hx : |fl x| < 2 ^ 1024) : Overflow.round fl x = .fin (fl x) := by
  obtain ⟨h1, h2⟩ := abs_lt.1 hx
  rw [Overflow.round, if_neg (not_le.2 h2), if_neg (not_le.2 h1)]

theorem round_cases (x : ℝ) : Overflow.round fl x ≠ .nan := by
  rw [Overflow.round]
  split_ifs <;> simp

/-- A double beyond the size of `x` bounds its rounding. -/
theorem abs_fl_le (h : Nearest fl) {x M : ℝ} (hM : M ∈ Double) (hx : |x| ≤ M) : |fl x| ≤ M := by
  obtain ⟨h1, h2⟩ := abs_le.1 hx
  exact abs_le.2 ⟨le_fl_of_le h (double_neg hM) h1, fl_le_of_le h hM h2⟩

theorem round_fin_of_le (h : Nearest fl) {x M : ℝ} (hM : M ∈ Double) (hx : |x| ≤ M)
    (hb : M < 2 ^ 1024) : Overflow.round fl x = .fin (fl x) :=
  round_fin ((abs_fl_le h hM hx).trans_lt hb)

theorem add_fin (x y : ℝ) : Overflow.add fl (.fin x) (.fin y) = Overflow.round fl (x + y) := rfl

theorem sub_fin (x y : ℝ) : Overflow.sub fl (.fin x) (.fin y) = Overflow.round fl (x - y) := by
  rw [sub_eq_add_neg]
  rfl

theorem mul_fin (x y : ℝ) : Overflow.mul fl (.fin x) (.fin y) = Overflow.round fl (x * y) := rfl

theorem divPos_fin (x y : ℝ) : Overflow.divPos fl (.fin x) (.fin y) = Overflow.round fl (x / y) := rfl

/-- Between the ends of a finite search space nothing overflows. -/
theorem round_between {x lo hi : ℝ} (h1 : lo ≤ fl x) (h2 : fl x ≤ hi) (hlo : |lo| < 2 ^ 1024)
    (hhi : |hi| < 2 ^ 1024) : Overflow.round fl x = .fin (fl x) :=
  round_fin (abs_lt.2 ⟨(abs_lt.1 hlo).1.trans_le h1, h2.trans_lt (abs_lt.1 hhi).2⟩)

theorem width_fin (h : Nearest fl) {lo hi : ℝ} (hle : lo ≤ hi) (hw : fl (hi - lo) < 2 ^ 1024) :
    Overflow.sub fl (.fin hi) (.fin lo) = .fin (fl (hi - lo)) := by
  rw [sub_fin]
  exact round_fin (by rwa [abs_of_nonneg (fl_nonneg h (sub_nonneg.2 hle))])

theorem width_inf {lo hi : ℝ} (hw : 2 ^ 1024 ≤ fl (hi - lo)) :
    Overflow.sub fl (.fin hi) (.fin lo) = .pinf := by
  rw [sub_fin, Overflow.round, if_pos hw]

/-- One scaled coordinate. -/
theorem scale_fin (h : Nearest fl) {lo hi u : ℝ} (hlo : lo ∈ Double) (hhi : hi ∈ Double)
    (hle : lo ≤ hi) (hu : u ∈ Double) (h0 : 0 ≤ u) (h1 : u < 1) (flo : |lo| < 2 ^ 1024)
    (fhi : |hi| < 2 ^ 1024) (hw : fl (hi - lo) < 2 ^ 1024) :
    Overflow.add fl (Overflow.mul fl (.fin u) (Overflow.sub fl (.fin hi) (.fin lo))) (.fin lo) =
      .fin (fl (fl (u * fl (hi - lo)) + lo)) := by
  have w0 : 0 ≤ fl (hi - lo) := fl_nonneg h (sub_nonneg.2 hle)
  rw [width_fin h hle hw, mul_fin, round_fin_of_le h (h.mem (hi - lo)) _ hw, add_fin]
  · obtain ⟨a, b⟩ := scale_box h hlo hhi hle hu h0 h1
    exact round_between a b flo fhi
  · rw [abs_of_nonneg (mul_nonneg h0 w0)]
    exact mul_le_of_le_one_left w0 h1.le

theorem add_fin_comm (x : ℝ) (a : Flt) :
    Overflow.add fl (.fin x) a = Overflow.add fl a (.fin x) := by
  rw [Overflow.add, Overflow.add, flt_add_comm]

theorem mul_comm_fin (x : ℝ) (a : Flt) :
    Overflow.mul fl a (.fin x) = Overflow.mul fl (.fin x) a := by
  cases a <;> simp [Overflow.mul, mul_comm]

/-! ### Grids -/

theorem linspaceEntry_fin (h : Nearest fl) {a b : ℝ} (ha : a ∈ Double) (hb : b ∈ Double)
    (hab : a = b ∨ (2 : ℝ) ^ (-960 : ℤ) ≤ b - a) (fa : |a| < 2 ^ 1024) (fb : |b| < 2 ^ 1024)
    (hw : fl (b - a) < 2 ^ 1024) {n i : ℕ} (hn : n + 1 ≤ 2 ^ 50) (hi : i ≤ n) :
    Overflow.linspaceEntry fl a b ((n : ℝ) + 1) i =
      .fin (Rounded.linspaceEntry fl a b ((n : ℝ) + 1) i) := by
  have hle : a ≤ b := by
    rcases hab with rfl | hab
    · exact le_rfl
    · have : (0 : ℝ) < (2 : ℝ) ^ (-960 : ℤ) := by positivity
      linarith
  have w0 : 0 ≤ fl (b - a) := fl_nonneg h (sub_nonneg.2 hle)
  have hn0 : (0 : ℝ) ≤ n := Nat.cast_nonneg n
  have hi0 : (0 : ℝ) ≤ i := Nat.cast_nonneg i
  have hi' : (i : ℝ) ≤ n := by exact_mod_cast hi
  have hp : (0 : ℝ) < (n : ℝ) + 1 := by linarith
  have hstep : Overflow.divPos fl (Overflow.sub fl (.fin b) (.fin a)) (.fin ((n : ℝ) + 1)) =
      .fin (fl (fl (b - a) / ((n : ℝ) + 1))) := by
    rw [width_fin h hle hw, divPos_fin, round_fin_of_le h (h.mem (b - a)) _ hw]
    rw [abs_of_nonneg (by positivity)]
    exact div_le_self w0 (by linarith)
  obtain ⟨m1, m2⟩ := linspaceEntry_mem h ha hb hab hn hi
  by_cases hs : fl (fl (b - a) / ((n : ℝ) + 1)) = 0
  · have h1 : (1 : ℝ) ∈ Double := by
      have := double_nat (m := 1) (by norm_num)
      simpa using this
    have q1 : |(i : ℝ) / ((n : ℝ) + 1)| ≤ 1 := by
      rw [abs_of_nonneg (by positivity), div_le_one hp]
      linarith
    have q2 := abs_fl_le h h1 q1
    simp only [Rounded.linspaceEntry, if_pos hs] at m1 m2
    simp only [Overflow.linspaceEntry, hstep, hs, if_true, Rounded.linspaceEntry]
    rw [width_fin h hle hw, divPos_fin, round_fin_of_le h h1 q1 (by
      exact one_lt_pow₀ (by norm_num) (by norm_num)), mul_fin,
      round_fin_of_le h (h.mem (b - a)) _ hw, add_fin]
    · exact round_between m1 m2 fa fb
    · rw [abs_mul, abs_of_nonneg w0]
      exact mul_le_of_le_one_left w0 q2
  · obtain ⟨v0, v1⟩ := linspaceStep_mem h ha hb hab hn hi hs
    have v2 : fl ((i : ℝ) * fl (fl (b - a) / ((n : ℝ) + 1))) ≤ fl (b - a) := by
      have := fl_mono h v1
      rwa [fl_of_mem h (h.mem _)] at this
    simp only [Rounded.linspaceEntry, if_neg hs] at m1 m2
    simp only [Overflow.linspaceEntry, hstep, Flt.fin.injEq, hs, if_false, Rounded.linspaceEntry]
    rw [mul_fin, round_fin (by rw [abs_of_nonneg v0]; exact v2.trans_lt hw), add_fin]
    exact round_between m1 m2 fa fb

theorem linspaceNat_fin (h : Nearest fl) {a b : ℝ} (ha : a ∈ Double) (hb : b ∈ Double)
    (hab : a = b ∨ (2 : ℝ) ^ (-960 : ℤ) ≤ b - a) (fa : |a| < 2 ^ 1024) (fb : |b| < 2 ^ 1024)
    (hw : fl (b - a) < 2 ^ 1024) {n : ℕ} (hn : n ≤ 2 ^ 50) :
    Overflow.linspaceNat fl a b n = (Rounded.linspaceNat fl a b n).map Flt.fin := by
  match n with
  | 0 => rfl
  | 1 => rfl
  | (n + 2) =>
    simp only [Overflow.linspaceNat, Rounded.linspaceNat, List.map_append, List.map_map,
      List.map_cons, List.map_nil]
    congr 1
    apply List.map_congr_left
    intro i hi
    have := List.mem_range.1 hi
    exact linspaceEntry_fin h ha hb hab fa fb hw (by omega) (by omega)

theorem cart_map {α β : Type} (f : α → β) (l : List (List α)) :
    UtilsCommon.cart (l.map (List.map f)) = (UtilsCommon.cart l).map (List.map f) := by
  induction l with
  | nil => rfl
  | cons v l ih =>
    simp only [List.map_cons, UtilsCommon.cart, ih, List.map_flatMap, List.flatMap_map, List.map_map]
    rfl

theorem meshgridRows_map {α β : Type} (f : α → β) (l : List (List α)) :
    UtilsCommon.meshgridRows (l.map (List.map f)) =
      (UtilsCommon.meshgridRows l).map (List.map (List.map f)) := by
  match l with
  | [] => rfl
  | [v] =>
    have := cart_map f [v]
    simp only [List.map_cons, List.map_nil] at this
    simp [UtilsCommon.meshgridRows, this, Except.map]
  | v₀ :: v₁ :: rest =>
    have := cart_map f (v₁ :: v₀ :: rest)
    simp only [List.map_cons] at this
    simp only [List.map_cons, UtilsCommon.meshgridRows, this, Except.map, List.map_map]
    congr 1
    apply List.map_congr_left
    intro r _
    match r with
    | [] => rfl
    | [_] => rfl
    | _ :: _ :: _ => rfl

theorem rowsToPoints_map {α β : Type} (f : α → β) (d : ℕ) (l : List (List α)) :
    BaseBo.rowsToPoints d (l.map (List.map f)) =
      (BaseBo.rowsToPoints d l).map (List.map fun p j => f (p j)) := by
  induction l with
  | nil => rfl
  | cons r l ih =>
    simp only [List.map_cons, BaseBo.rowsToPoints, List.length_map, ih]
    split
    · cases BaseBo.rowsToPoints d l with
      | error e => rfl
      | ok t =>
        simp only [Except.map, bind, Except.bind, pure, Except.pure, List.map_cons]
        congr 2
        funext j
        simp
    · rfl

theorem overflow_mapM_linspace (rs : List (ℝ × ℝ)) (n : ℕ) :
    rs.mapM (fun r => Overflow.linspace fl r.1 r.2 (n : ℤ)) =
      .ok (rs.map (fun r => Overflow.linspaceNat fl r.1 r.2 n)) := by
  induction rs with
  | nil => rfl
  | cons r rs ih =>
    have h0 : Overflow.linspace fl r.1 r.2 (n : ℤ) = .ok (Overflow.linspaceNat fl r.1 r.2 n) := by
      simp [Overflow.linspace, show ¬ ((n : ℤ) < 0) by omega]
    rw [List.mapM_cons, ih, h0]
    rfl

/-! ### The methods one by one -/

section methods

open Verif.Constants

variable {d : ℕ} (B : Bounds d) (r : BaseBo.Draws d) (n : ℤ)

theorem overflow_grid : Overflow.getSamples fl B r "grid" n = Overflow.getSamplesGrid fl B n := by
  simp [Overflow.getSamples, pyAssert, ALLOWED_SAMPLING_METHOD,
    ALLOWED_INITIALIZING_METHOD_BO, bind, Except.bind]

theorem overflow_uniform :
    Overflow.getSamples fl B r "uniform" n = Overflow.getSamplesUniform fl B r n := by
  simp [Overflow.getSamples, pyAssert, ALLOWED_SAMPLING_METHOD,
    ALLOWED_INITIALIZING_METHOD_BO, bind, Except.bind]

theorem overflow_gaussian :
    Overflow.getSamples fl B r "gaussian" n = .ok (Overflow.getSamplesGaussian fl B r n) := by
  simp [Overflow.getSamples, pyAssert, ALLOWED_SAMPLING_METHOD,
    ALLOWED_INITIALIZING_METHOD_BO, bind, Except.bind, pure, Except.pure]

theorem overflow_sobol :
    Overflow.getSamples fl B r "sobol" n = Overflow.getSamplesQmc fl B r.sobol n := by
  simp [Overflow.getSamples, pyAssert, ALLOWED_SAMPLING_METHOD,
    ALLOWED_INITIALIZING_METHOD_BO, bind, Except.bind]

theorem overflow_halton :
    Overflow.getSamples fl B r "halton" n = Overflow.getSamplesQmc fl B r.halton n := by
  simp [Overflow.getSamples, pyAssert, ALLOWED_SAMPLING_METHOD,
    ALLOWED_INITIALIZING_METHOD_BO, bind, Except.bind]

end methods

/-! ### Sums -/

theorem sumF_pinf (l : List Flt) (hl : ∀ a ∈ l, a = .pinf) (o : Rounded.SumOrder)
    (ho : ∀ i ∈ o.entries, i < l.length) :
    Overflow.sumF fl l o = .pinf ∧ Rounded.sumF fl l o = .pinf := by
  induction o with
  | entry i =>
    have hi : i < l.length := ho i (by simp [Rounded.SumOrder.entries])
    simp only [Overflow.sumF, Rounded.sumF, List.getElem?_eq_getElem hi, Option.getD_some]
    exact ⟨hl _ (List.getElem_mem hi), hl _ (List.getElem_mem hi)⟩
  | add a b iha ihb =>
    simp only [Rounded.SumOrder.entries, List.mem_append] at ho
    obtain ⟨a1, a2⟩ := iha fun i hi => ho i (Or.inl hi)
    obtain ⟨b1, b2⟩ := ihb fun i hi => ho i (Or.inr hi)
    simp only [Overflow.sumF, Rounded.sumF, a1, a2, b1, b2]
    exact ⟨rfl, rfl⟩

theorem sumF_fin (h : Nearest fl) {m : ℤ} (hm : -1074 ≤ m) (l : List ℝ)
    (hl : ∀ x ∈ l, |x| ≤ (2 : ℝ) ^ m) (o : Rounded.SumOrder)
    (ho : ∀ i ∈ o.entries, i < l.length) (h53 : o.entries.length ≤ 2 ^ 53)
    (hb : (o.entries.length : ℝ) * (2 : ℝ) ^ m < 2 ^ 1024) :
    Overflow.sumF fl (l.map Flt.fin) o = .fin (sumR fl l o) ∧
      |sumR fl l o| ≤ o.entries.length * (2 : ℝ) ^ m := by
  induction o with
  | entry i =>
    have hi : i < l.length := ho i (by simp [Rounded.SumOrder.entries])
    simp only [Overflow.sumF, sumR, Rounded.SumOrder.entries, List.length_singleton, Nat.cast_one,
      one_mul, List.getElem?_map, List.getElem?_eq_getElem hi, Option.map_some, Option.getD_some]
    exact ⟨trivial, hl _ (List.getElem_mem hi)⟩
  | add a b iha ihb =>
    have hp : (0 : ℝ) < (2 : ℝ) ^ m := by positivity
    simp only [Rounded.SumOrder.entries, List.mem_append, List.length_append] at ho h53 hb
    push_cast at hb
    have ha0 : (0 : ℝ) ≤ (a.entries.length : ℝ) * 2 ^ m := by positivity
    have hb0 : (0 : ℝ) ≤ (b.entries.length : ℝ) * 2 ^ m := by positivity
    rw [add_mul] at hb
    obtain ⟨a1, a2⟩ := iha (fun i hi => ho i (Or.inl hi)) (by omega) (by linarith)
    obtain ⟨b1, b2⟩ := ihb (fun i hi => ho i (Or.inr hi)) (by omega) (by linarith)
    have hM : (((a.entries.length + b.entries.length : ℕ) : ℤ) : ℝ) * (2 : ℝ) ^ m ∈ Double :=
      double_le (by rw [abs_of_nonneg (by omega)]; exact_mod_cast h53) hm
    have hx : |sumR fl l a + sumR fl l b| ≤
        (((a.entries.length + b.entries.length : ℕ) : ℤ) : ℝ) * (2 : ℝ) ^ m := by
      refine (abs_add_le _ _).trans ?_
      push_cast
      rw [add_mul]
      linarith
    simp only [Overflow.sumF, sumR, a1, b1, Rounded.SumOrder.entries, List.length_append]
    refine ⟨?_, ?_⟩
    · rw [add_fin]
      refine round_fin_of_le h hM hx ?_
      push_cast
      rw [add_mul]
      exact hb
    · have := abs_fl_le h hM hx
      push_cast at this ⊢
      exact this

theorem overflow_meanF (h : Nearest fl) {m : ℤ} (hm : -1074 ≤ m) (l : List ℝ)
    (hl : ∀ x ∈ l, |x| ≤ (2 : ℝ) ^ m) (o : Rounded.SumOrder) (ho : o.Covers l.length)
    (h1 : 1 ≤ l.length) (h53 : l.length ≤ 2 ^ 53) (hb : (l.length : ℝ) * (2 : ℝ) ^ m < 2 ^ 1024) :
    Overflow.meanF fl o (l.map Flt.fin) = Rounded.meanF fl o (l.map Flt.fin) := by
  have hlen : o.entries.length = l.length := by
    rw [ho.length_eq, List.length_range]
  have hmem : ∀ i ∈ o.entries, i < l.length := fun i hi => List.mem_range.1 (ho.mem_iff.1 hi)
  have hp : (0 : ℝ) < (2 : ℝ) ^ m := by positivity
  have h1' : (1 : ℝ) ≤ l.length := by exact_mod_cast h1
  obtain ⟨s1, s2⟩ := sumF_fin h hm l hl o hmem (by rw [hlen]; exact h53) (by rw [hlen]; exact hb)
  rw [hlen] at s2
  have hle : (2 : ℝ) ^ m ≤ l.length * (2 : ℝ) ^ m := le_mul_of_one_le_left hp.le h1'
  rw [Overflow.meanF, Rounded.meanF, s1, sumF_finite l o hmem, divPos_fin]
  simp only [Flt.divPos, Rounded.roundF]
  rw [List.length_map]
  refine round_fin_of_le h (double_half hm) ?_ (hle.trans_lt hb)
  rw [abs_div, abs_of_nonneg (by positivity : (0 : ℝ) ≤ l.length), div_le_iff₀ (by linarith), mul_comm]
  exact s2

theorem overflow_meanF_pinf (l : List Flt) (hl : ∀ a ∈ l, a = .pinf) (o : Rounded.SumOrder)
    (ho : o.Covers l.length) : Overflow.meanF fl o l = Rounded.meanF fl o l := by
  obtain ⟨h1, h2⟩ := sumF_pinf (fl := fl) l hl o fun i hi => List.mem_range.1 (ho.mem_iff.1 hi)
  rw [Overflow.meanF, Rounded.meanF, h1, h2]
  rfl

end Verif.Lemmas
