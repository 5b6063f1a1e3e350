import Verif.Lemmas.RoundedTrees

/-! Helper lemmas: midpoints, means and variances of doubles. -/

namespace Verif.RoundedTrees

open Verif.Spec Verif.Lemmas Verif.Trees Verif.Rounded Verif.RoundedKernels

variable {fl : ℝ → ℝ} {o : Orders} {d : ℕ}

theorem double_twice {x : ℝ} (h : x ∈ Double) : 2 * x ∈ Double := by
  obtain ⟨m, e, hm, he, rfl⟩ := h
  refine ⟨m, e + 1, hm, by omega, ?_⟩
  rw [zpow_add_one₀ (by norm_num)]
  ring

/-- The halved sum of two doubles lies between them. -/
theorem midpoint_mem (h : Nearest fl) {a b : ℝ} (ha : a ∈ Double) (hb : b ∈ Double) (hab : a ≤ b) :
    a ≤ fl (fl (a + b) / 2) ∧ fl (fl (a + b) / 2) ≤ b := by
  constructor
  · apply le_fl_of_le h ha
    have := le_fl_of_le h (double_twice ha) (show 2 * a ≤ a + b by linarith)
    linarith
  · apply fl_le_of_le h hb
    have := fl_le_of_le h (double_twice hb) (show a + b ≤ 2 * b by linarith)
    linarith

/-- A rounded sum can be halved exactly, unless it is itself exact. -/
theorem halved_sum (h : Nearest fl) {a b : ℝ} (ha : a ∈ Double) (hb : b ∈ Double) :
    fl (a + b) / 2 ∈ Double ∨ fl (a + b) = a + b := by
  obtain ⟨m, e, hm, he, hs⟩ := h.mem (a + b)
  by_cases he' : -1073 ≤ e
  · left
    refine ⟨m, e - 1, hm, by omega, ?_⟩
    rw [hs, zpow_sub_one₀ (by norm_num)]
    ring
  · right
    have he : e = -1074 := by omega
    subst he
    obtain ⟨k, hk⟩ := double_multiple ha
    obtain ⟨l, hl⟩ := double_multiple hb
    have hT : (0 : ℝ) < (2 : ℝ) ^ (-1074 : ℤ) := by positivity
    have hsum : a + b = ((k + l : ℤ) : ℝ) * (2 : ℝ) ^ (-1074 : ℤ) := by
      rw [hk, hl]; push_cast; ring
    apply fl_of_mem h
    rw [hsum]
    apply double_le _ (by norm_num)
    by_contra hc
    push Not at hc
    have hm' := abs_lt.1 hm
    have h53 : ((2 : ℤ) ^ 53) = 9007199254740992 := by norm_num
    rcases le_total 0 (k + l) with h0 | h0
    · rw [abs_of_nonneg h0] at hc
      have h1 : ((2 ^ 53 : ℤ) : ℝ) * (2 : ℝ) ^ (-1074 : ℤ) ∈ Double :=
        double_le (by norm_num) (by norm_num)
      have h2 := le_fl_of_le h h1 (y := a + b) (by
        rw [hsum]
        apply mul_le_mul_of_nonneg_right _ hT.le
        exact_mod_cast hc.le)
      rw [hs] at h2
      have := le_of_mul_le_mul_right h2 hT
      have : (2 ^ 53 : ℤ) ≤ m := by exact_mod_cast this
      omega
    · rw [abs_of_nonpos h0] at hc
      have h1 : ((-2 ^ 53 : ℤ) : ℝ) * (2 : ℝ) ^ (-1074 : ℤ) ∈ Double :=
        double_le (by norm_num) (by norm_num)
      have h2 := fl_le_of_le h h1 (x := a + b) (by
        rw [hsum]
        apply mul_le_mul_of_nonneg_right _ hT.le
        have : k + l ≤ -2 ^ 53 := by omega
        exact_mod_cast this)
      rw [hs] at h2
      have := le_of_mul_le_mul_right h2 hT
      have : m ≤ (-2 ^ 53 : ℤ) := by exact_mod_cast this
      omega

/-- Between doubles with a double in between, the halved sum lies strictly between. -/
theorem midpoint_between (h : Nearest fl) {a b c : ℝ} (ha : a ∈ Double) (hb : b ∈ Double)
    (hc : c ∈ Double) (hac : a < c) (hcb : c < b) :
    a < fl (fl (a + b) / 2) ∧ fl (fl (a + b) / 2) < b := by
  have h2c := h.near (a + b) (2 * c) (double_twice hc)
  have hlo := le_fl_of_le h (double_twice ha) (show 2 * a ≤ a + b by linarith)
  have hhi := fl_le_of_le h (double_twice hb) (show a + b ≤ 2 * b by linarith)
  have hs1 : 2 * a < fl (a + b) := by
    rcases hlo.lt_or_eq with h1 | h1
    · exact h1
    · exfalso
      rw [← h1, abs_of_nonpos (by linarith)] at h2c
      rcases abs_cases (2 * c - (a + b)) with ⟨h3, _⟩ | ⟨h3, _⟩ <;> rw [h3] at h2c <;> linarith
  have hs2 : fl (a + b) < 2 * b := by
    rcases hhi.lt_or_eq with h1 | h1
    · exact h1
    · exfalso
      rw [h1, abs_of_nonneg (by linarith)] at h2c
      rcases abs_cases (2 * c - (a + b)) with ⟨h3, _⟩ | ⟨h3, _⟩ <;> rw [h3] at h2c <;> linarith
  rcases halved_sum h ha hb with h1 | h1
  · rw [fl_of_mem h h1]
    constructor <;> linarith
  · rw [h1]
    have hn := h.near ((a + b) / 2) c hc
    have hm := midpoint_mem h ha hb (hac.trans hcb).le
    rw [h1] at hm
    constructor
    · rcases hm.1.lt_or_eq with h3 | h3
      · exact h3
      · exfalso
        rw [← h3, abs_of_nonpos (by linarith)] at hn
        rcases abs_cases (c - (a + b) / 2) with ⟨h4, _⟩ | ⟨h4, _⟩ <;> rw [h4] at hn <;> linarith
    · rcases hm.2.lt_or_eq with h3 | h3
      · exact h3
      · exfalso
        rw [h3, abs_of_nonneg (by linarith)] at hn
        rcases abs_cases (c - (a + b) / 2) with ⟨h4, _⟩ | ⟨h4, _⟩ <;> rw [h4] at hn <;> linarith

/-! ### Means -/

theorem avg_mono {α : Type _} {l : List α} {f g : α → ℝ} (h : ∀ a ∈ l, f a ≤ g a) :
    avg (l.map f) ≤ avg (l.map g) := by
  unfold avg
  simp only [List.length_map]
  exact div_le_div_of_nonneg_right (List.sum_le_sum h) (Nat.cast_nonneg _)

theorem avg_const {α : Type _} {l : List α} (hl : l ≠ []) (e : ℝ) : avg (l.map fun _ => e) = e := by
  have hpos : (0 : ℝ) < l.length := by exact_mod_cast List.length_pos_iff.2 hl
  simp only [avg, List.map_const', List.sum_replicate, List.length_replicate, nsmul_eq_mul]
  field_simp

theorem avg_mul {α : Type _} (l : List α) (k : ℝ) (f : α → ℝ) :
    avg (l.map fun a => k * f a) = k * avg (l.map f) := by
  simp only [avg, List.length_map, List.sum_map_mul_left, mul_div_assoc]

theorem avg_sub {α : Type _} (l : List α) (f g : α → ℝ) :
    avg (l.map fun a => f a - g a) = avg (l.map f) - avg (l.map g) := by
  have h := avg_map_add l (fun a => f a - g a) g
  simp only [sub_add_cancel] at h
  linarith

theorem abs_avg_le {α : Type _} (l : List α) (f : α → ℝ) :
    |avg (l.map f)| ≤ avg (l.map fun a => |f a|) := by
  rw [abs_le]
  constructor
  · have h := avg_mono (l := l) (f := fun a => (-1) * |f a|) (g := f) (fun a _ => by
      linarith [neg_abs_le (f a)])
    rw [avg_mul] at h
    linarith
  · exact avg_mono (fun a _ => le_abs_self (f a))

/-- Averages of close numbers are close. -/
theorem avg_close {α : Type _} {l : List α} (hl : l ≠ []) {f g w : α → ℝ} {k e : ℝ}
    (h : ∀ a ∈ l, |f a - g a| ≤ k * w a + e) :
    |avg (l.map f) - avg (l.map g)| ≤ k * avg (l.map w) + e := by
  rw [← avg_sub]
  refine (abs_avg_le l _).trans ((avg_mono h).trans ?_)
  rw [avg_map_add, avg_mul, avg_const hl]

theorem avg_le {α : Type _} {l : List α} (hl : l ≠ []) {f : α → ℝ} {e : ℝ} (h : ∀ a ∈ l, f a ≤ e) :
    avg (l.map f) ≤ e := by
  have := avg_mono (l := l) (f := f) (g := fun _ => e) h
  rwa [avg_const hl] at this

theorem avg_nonneg {α : Type _} {l : List α} {f : α → ℝ} (h : ∀ a ∈ l, 0 ≤ f a) :
    0 ≤ avg (l.map f) := by
  unfold avg
  apply div_nonneg _ (Nat.cast_nonneg _)
  apply List.sum_nonneg
  intro y hy
  obtain ⟨a, ha, rfl⟩ := List.mem_map.1 hy
  exact h a ha

theorem meanOf_mem (h : Nearest fl) (order : ℕ → SumOrder) (l : List ℝ) :
    meanOf fl order l ∈ Double := h.mem _

/-- The error of a mean. -/
theorem meanOf_error (h : Nearest fl) {order : ℕ → SumOrder} {l : List ℝ}
    (ho : (order l.length).Covers l.length) (hd : ∀ x ∈ l, x ∈ Double)
    (hn : 2 * (l.length : ℝ) * (1 / 2 ^ 53) ≤ 1) :
    |meanOf fl order l - avg l| ≤ 2 * l.length * (1 / 2 ^ 53) * avg (l.map abs) +
      (2 : ℝ) ^ (-1075 : ℤ) := by
  obtain ⟨m, hm, he⟩ := meanF_accuracy h l hd (order l.length) ho
  have hlt : ∀ i ∈ (order l.length).entries, i < l.length :=
    fun i hi => List.mem_range.1 (ho.mem_iff.1 hi)
  have : m = meanOf fl order l := by
    rw [Rounded.meanF, sumF_finite l _ hlt, List.length_map, Flt.divPos, roundF] at hm
    rw [meanOf, Lemmas.sumList_eq]
    exact (Flt.fin.inj hm).symm
  rw [← this]
  refine he.trans ?_
  have hp := pow_sub_one_le (u := 1 / 2 ^ 53) (by norm_num) l.length hn
  have h0 : 0 ≤ avg (l.map abs) := avg_nonneg (fun a _ => abs_nonneg a)
  have e : avg (l.map abs) = (l.map abs).sum / l.length := by simp [avg]
  rw [← e]
  have := mul_le_mul_of_nonneg_right hp h0
  linarith

/-- The error of a variance in terms of the error of the mean in it. -/
theorem varOf_error (h : Nearest fl) {order : ℕ → SumOrder} {l : List ℝ} (hl : l ≠ [])
    (ho : (o.flat l.length).Covers l.length) (hd : ∀ x ∈ l, x ∈ Double)
    (hn : 2 * (l.length : ℝ) * (1 / 2 ^ 53) ≤ 1 / 4) :
    |varOf fl o order l - msd (avg l) l| ≤
      2 * (l.length + 4) * (1 / 2 ^ 53) * (msd (avg l) l + (avg l - meanOf fl order l) ^ 2) +
        (avg l - meanOf fl order l) ^ 2 + 3 * (2 : ℝ) ^ (-1075 : ℤ) := by
  set m := meanOf fl order l with hm
  have hmD : m ∈ Double := meanOf_mem h order l
  have hW := msd_eq hl m
  set W := msd m l with hWd
  have hW0 : 0 ≤ W := msd_nonneg _ _
  have hq : ∀ y ∈ l, |square fl (fl (y - m)) - (y - m) ^ 2| ≤
      5 * (1 / 2 ^ 53) * (y - m) ^ 2 + (2 : ℝ) ^ (-1075 : ℤ) :=
    fun y hy => square_error h (hd y hy) hmD
  have hq0 : ∀ y : ℝ, 0 ≤ square fl (fl (y - m)) := fun y => fl_nonneg h (sq_nonneg _)
  set q := l.map (fun y => square fl (fl (y - m))) with hqd
  have hc1 : |avg q - W| ≤ 5 * (1 / 2 ^ 53) * W + (2 : ℝ) ^ (-1075 : ℤ) := avg_close hl hq
  have hlen : q.length = l.length := by simp [hqd]
  have hc2 := meanOf_error h (order := o.flat) (l := q) (by rw [hlen]; exact ho)
    (by
      intro x hx
      obtain ⟨y, _, rfl⟩ := List.mem_map.1 hx
      exact h.mem _)
    (by rw [hlen]; linarith)
  have habs : q.map abs = q := by
    rw [hqd, List.map_map]
    apply List.map_congr_left
    intro y _
    exact abs_of_nonneg (hq0 y)
  rw [habs, hlen] at hc2
  have hv : varOf fl o order l = meanOf fl o.flat q := rfl
  rw [hv]
  have hW' : msd (avg l) l + (avg l - m) ^ 2 = W := hW.symm
  rw [hW']
  have hτ : (0 : ℝ) < (2 : ℝ) ^ (-1075 : ℤ) := by positivity
  have hN : (0 : ℝ) ≤ l.length := Nat.cast_nonneg _
  have hu0 : (0 : ℝ) < 1 / 2 ^ 53 := by norm_num
  generalize (2 : ℝ) ^ (-1075 : ℤ) = τ at *
  generalize (1 : ℝ) / 2 ^ 53 = u at *
  generalize (l.length : ℝ) = N at *
  generalize meanOf fl o.flat q = Q at *
  generalize avg q = a at *
  have ha := abs_le.1 hc1
  have hQ := abs_le.1 hc2
  have hg : 0 ≤ 2 * N * u := by positivity
  have h5 : 2 * N * u * (5 * u * W) ≤ 1 / 4 * (5 * u * W) :=
    mul_le_mul_of_nonneg_right hn (by positivity)
  have h6 : 2 * N * u * τ ≤ 1 / 4 * τ := mul_le_mul_of_nonneg_right hn hτ.le
  have h7 : 2 * N * u * a ≤ 2 * N * u * (W + 5 * u * W + τ) :=
    mul_le_mul_of_nonneg_left (by linarith) hg
  have hmain : |Q - W| ≤ 2 * (N + 4) * u * W + 3 * τ := by
    rw [abs_le]
    have huW : 0 ≤ u * W := by positivity
    constructor <;> nlinarith
  have h8 : |W - msd (avg l) l| = (avg l - m) ^ 2 := by
    rw [← hW', add_sub_cancel_left, abs_of_nonneg (sq_nonneg _)]
  have := abs_sub_le Q W (msd (avg l) l)
  linarith

theorem msd_le_sq {l : List ℝ} (hl : l ≠ []) {M : ℝ} (hM : ∀ y ∈ l, |y| ≤ M) :
    msd (avg l) l + avg l ^ 2 ≤ M ^ 2 := by
  have h := msd_eq hl 0
  simp only [sub_zero] at h
  rw [← h, msd]
  apply avg_le hl
  intro y hy
  rw [sub_zero, ← sq_abs]
  exact pow_le_pow_left₀ (abs_nonneg _) (hM y hy) 2

theorem avg_abs_le {l : List ℝ} (hl : l ≠ []) {M : ℝ} (hM : ∀ y ∈ l, |y| ≤ M) :
    avg (l.map abs) ≤ M := avg_le hl hM

theorem tiny_M {M : ℝ} (hM : (2 : ℝ) ^ (-500 : ℤ) ≤ M) :
    (2 : ℝ) ^ (-1075 : ℤ) ≤ 1 / 2 ^ 53 / 2 ^ 20 * M ∧
      (2 : ℝ) ^ (-1075 : ℤ) ≤ 1 / 2 ^ 53 / 2 ^ 20 * M ^ 2 := by
  have h0 : (0 : ℝ) < (2 : ℝ) ^ (-500 : ℤ) := by positivity
  have e1 : (2 : ℝ) ^ (-1075 : ℤ) ≤ 1 / 2 ^ 53 / 2 ^ 20 * (2 : ℝ) ^ (-500 : ℤ) := by
    rw [show (1 : ℝ) / 2 ^ 53 / 2 ^ 20 = (2 : ℝ) ^ (-73 : ℤ) by norm_num, ← zpow_add₀ (by norm_num)]
    exact zpow_le_zpow_right₀ (by norm_num) (by norm_num)
  have e2 : (2 : ℝ) ^ (-1075 : ℤ) ≤ 1 / 2 ^ 53 / 2 ^ 20 * ((2 : ℝ) ^ (-500 : ℤ)) ^ 2 := by
    rw [show (1 : ℝ) / 2 ^ 53 / 2 ^ 20 = (2 : ℝ) ^ (-73 : ℤ) by norm_num, pow_two,
      ← zpow_add₀ (by norm_num), ← zpow_add₀ (by norm_num)]
    exact zpow_le_zpow_right₀ (by norm_num) (by norm_num)
  constructor
  · exact e1.trans (mul_le_mul_of_nonneg_left hM (by norm_num))
  · exact e2.trans (mul_le_mul_of_nonneg_left (pow_le_pow_left₀ h0.le hM 2) (by norm_num))

/-- Mean and variance of numbers up to `M`. -/
theorem mean_var_error (h : Nearest fl) {order : ℕ → SumOrder} {l : List ℝ} (hl : l ≠ [])
    (ho : (o.flat l.length).Covers l.length) (ho' : (order l.length).Covers l.length)
    (hd : ∀ x ∈ l, x ∈ Double) {M : ℝ} (hM0 : (2 : ℝ) ^ (-500 : ℤ) ≤ M) (hM : ∀ y ∈ l, |y| ≤ M)
    (hn : 2 * ((l.length : ℝ) + 8) * (1 / 2 ^ 53) ≤ 1 / 64) :
    |meanOf fl order l - avg l| ≤ 2 * l.length * (1 / 2 ^ 53) * M + (2 : ℝ) ^ (-1075 : ℤ) ∧
    |varOf fl o order l - msd (avg l) l| ≤ 2 * (2 * ((l.length : ℝ) + 8) * (1 / 2 ^ 53)) * M ^ 2 := by
  have hu : (0 : ℝ) < 1 / 2 ^ 53 := by norm_num
  have hN : (0 : ℝ) ≤ l.length := Nat.cast_nonneg _
  have hMp : 0 < M := lt_of_lt_of_le (by positivity) hM0
  have h1 := meanOf_error h ho' hd (by nlinarith)
  have h2 := mul_le_mul_of_nonneg_left (avg_abs_le hl hM)
    (show 0 ≤ 2 * (l.length : ℝ) * (1 / 2 ^ 53) by positivity)
  have h3 := varOf_error h (o := o) (order := order) hl ho hd (by nlinarith)
  refine ⟨by linarith, h3.trans ?_⟩
  have hV := msd_le_sq hl hM
  have hV0 := msd_nonneg (avg l) l
  obtain ⟨t1, t2⟩ := tiny_M hM0
  have hε : |avg l - meanOf fl order l| ≤ 2 * (l.length + 1) * (1 / 2 ^ 53) * M := by
    rw [abs_sub_comm]
    have : (1 : ℝ) / 2 ^ 53 / 2 ^ 20 * M ≤ 2 * (1 / 2 ^ 53) * M := by
      apply mul_le_mul_of_nonneg_right _ hMp.le
      norm_num
    linarith
  have hε2 : (avg l - meanOf fl order l) ^ 2 ≤ (2 * (l.length + 1) * (1 / 2 ^ 53) * M) ^ 2 := by
    rw [← sq_abs]
    exact pow_le_pow_left₀ (abs_nonneg _) hε 2
  have hτ : 3 * (2 : ℝ) ^ (-1075 : ℤ) ≤ 1 / 2 ^ 53 * M ^ 2 := by
    have hM2 := sq_nonneg M
    have : 3 * ((1 : ℝ) / 2 ^ 53 / 2 ^ 20) * M ^ 2 ≤ 1 / 2 ^ 53 * M ^ 2 := by
      apply mul_le_mul_of_nonneg_right _ hM2
      norm_num
    linarith
  have hE0 : 0 ≤ (avg l - meanOf fl order l) ^ 2 := sq_nonneg _
  generalize (avg l - meanOf fl order l) ^ 2 = E at *
  generalize (2 : ℝ) ^ (-1075 : ℤ) = τ at *
  generalize (1 : ℝ) / 2 ^ 53 = u at *
  generalize (l.length : ℝ) = N at *
  generalize msd (avg l) l = V at *
  have hVM : V ≤ M ^ 2 := by nlinarith [sq_nonneg (avg l)]
  set θ := 2 * (N + 8) * u with hθ
  have hθ0 : 0 ≤ θ := by positivity
  have ha : 2 * (N + 1) * u ≤ θ := by rw [hθ]; nlinarith
  have ha0 : 0 ≤ 2 * (N + 1) * u := by positivity
  have hE : E ≤ 1 / 64 * θ * M ^ 2 := by
    refine hε2.trans ?_
    rw [mul_pow]
    apply mul_le_mul_of_nonneg_right _ (sq_nonneg M)
    nlinarith
  have hM2 : 0 ≤ M ^ 2 := sq_nonneg M
  have hEM : E ≤ 1 / 64 * M ^ 2 := by nlinarith
  have hb : 2 * (N + 4) * u ≤ θ := by rw [hθ]; nlinarith
  have hb0 : 0 ≤ 2 * (N + 4) * u := by positivity
  have h9 : 2 * (N + 4) * u * (V + E) ≤ θ * (M ^ 2 + 1 / 64 * M ^ 2) := by
    apply mul_le_mul hb (by linarith) _ hθ0
    linarith
  have h10 : u ≤ 1 / 16 * θ := by rw [hθ]; nlinarith
  have h11 := mul_le_mul_of_nonneg_right h10 hM2
  nlinarith [mul_nonneg hθ0 hM2]

end Verif.RoundedTrees
