import Verif.Model.OverflowKernels
import Verif.Lemmas.RoundedKernels
import Verif.Lemmas.Overflow

/-! # Covariances with overflow (lemmas for C130) -/

namespace Verif.Lemmas

open Verif.Spec Verif.Covariance Verif.UtilsCovariance Verif.Rounded

variable {fl ex : ℝ → ℝ}

/-- A float that is a number from zero up, or plus infinity. -/
def Up (a : Flt) : Prop := (∃ x : ℝ, 0 ≤ x ∧ a = .fin x) ∨ a = .pinf

theorem zpow_lt_overflow {m : ℤ} (h : m < 1024) : (2 : ℝ) ^ m < 2 ^ 1024 := by
  rw [show (2 : ℝ) ^ 1024 = (2 : ℝ) ^ ((1024 : ℕ) : ℤ) from (zpow_natCast _ _).symm]
  exact zpow_lt_zpow_right₀ (by norm_num) (by exact_mod_cast h)

theorem round_zpow (h : Nearest fl) {x : ℝ} (m : ℤ) (hm : -1074 ≤ m) (hm' : m < 1024)
    (hx : |x| ≤ (2 : ℝ) ^ m) :
    Overflow.round fl x = .fin (fl x) ∧ |fl x| ≤ (2 : ℝ) ^ m :=
  ⟨round_fin_of_le h (double_half hm) hx (zpow_lt_overflow hm'), abs_fl_le h (double_half hm) hx⟩

theorem round_up (h : Nearest fl) {x : ℝ} (hx : 0 ≤ x) : Up (Overflow.round fl x) := by
  have h0 := fl_nonneg h hx
  by_cases hb : 2 ^ 1024 ≤ fl x
  · exact .inr (by rw [Overflow.round, if_pos hb])
  · refine .inl ⟨fl x, h0, round_fin ?_⟩
    rw [abs_of_nonneg h0]
    exact not_le.1 hb

theorem mul_self_up (h : Nearest fl) {a : Flt} (ha : a ≠ .nan) : Up (Overflow.mul fl a a) := by
  cases a with
  | fin x => exact round_up h (mul_self_nonneg x)
  | pinf => exact .inr rfl
  | ninf => exact .inr rfl
  | nan => exact absurd rfl ha

theorem add_up (h : Nearest fl) {a b : Flt} (ha : Up a) (hb : Up b) : Up (Overflow.add fl a b) := by
  rcases ha with ⟨x, hx, rfl⟩ | rfl <;> rcases hb with ⟨y, hy, rfl⟩ | rfl
  · exact round_up h (add_nonneg hx hy)
  · exact .inr rfl
  · exact .inr rfl
  · exact .inr rfl

theorem add_pinf {a : Flt} (ha : Up a) :
    Overflow.add fl a .pinf = .pinf ∧ Overflow.add fl .pinf a = .pinf := by
  rcases ha with ⟨x, -, rfl⟩ | rfl <;> exact ⟨rfl, rfl⟩

theorem sum_up (h : Nearest fl) {v : List Flt} (hv : ∀ a ∈ v, Up a) (o : SumOrder)
    (ho : ∀ i ∈ o.entries, i < v.length) :
    Up (Overflow.sumF fl v o) ∧
      ((∃ i ∈ o.entries, v[i]? = some .pinf) → Overflow.sumF fl v o = .pinf) := by
  induction o with
  | entry i =>
    have hi : i < v.length := ho i (by simp [SumOrder.entries])
    simp only [Overflow.sumF, SumOrder.entries, List.mem_singleton, exists_eq_left,
      List.getElem?_eq_getElem hi, Option.getD_some]
    exact ⟨hv _ (List.getElem_mem hi), fun h => Option.some.inj h⟩
  | add a b iha ihb =>
    simp only [SumOrder.entries, List.mem_append] at ho ⊢
    obtain ⟨a1, a2⟩ := iha fun i hi => ho i (.inl hi)
    obtain ⟨b1, b2⟩ := ihb fun i hi => ho i (.inr hi)
    refine ⟨add_up h a1 b1, ?_⟩
    rintro ⟨i, hi | hi, hp⟩
    · rw [Overflow.sumF, a2 ⟨i, hi, hp⟩]
      exact (add_pinf b1).2
    · rw [Overflow.sumF, b2 ⟨i, hi, hp⟩]
      exact (add_pinf a1).1

theorem sqrt_up (h : Nearest fl) {a : Flt} (ha : Up a) : Up (OverflowKernels.sqrt fl a) := by
  rcases ha with ⟨x, hx, rfl⟩ | rfl
  · rw [OverflowKernels.sqrt, Flt.sqrt, if_neg (not_lt.2 hx)]
    exact round_up h (Real.sqrt_nonneg x)
  · exact .inr rfl

theorem sqrt_fin {x : ℝ} (hx : 0 ≤ x) :
    OverflowKernels.sqrt fl (.fin x) = Overflow.round fl √x := by
  rw [OverflowKernels.sqrt, Flt.sqrt, if_neg (not_lt.2 hx)]
  rfl

section distance

variable {n m d : ℕ} {o : SumOrder} {L : Lengthscales d} {l : Fin d → ℝ} {X : Fin n → Point d}
  {Xp : Fin m → Point d} {i : Fin n} {j : Fin m}

theorem overflow_scale (hL : Stands L l) (x : Point d) (k : Fin d) :
    OverflowKernels.scale fl L x k = Overflow.round fl (x k / l k) := by
  rcases hL with rfl | ⟨a, _, hl, rfl⟩
  · rfl
  · simp [OverflowKernels.scale, hl]

theorem covers_mem (ho : o.Covers d) {α : Type} (f : Fin d → α) :
    ∀ i ∈ o.entries, i < (List.ofFn f).length := fun i hi => by
  rw [List.length_ofFn]
  exact List.mem_range.1 (ho.mem_iff.1 hi)

theorem dist_up (h : Nearest fl) (ho : o.Covers d) (hL : Stands L l)
    (hX : ∀ k, |X i k / l k| ≤ (2 : ℝ) ^ (1023 : ℤ)) (hXp : ∀ k, |Xp j k / l k| ≤ (2 : ℝ) ^ (1023 : ℤ)) :
    Up (OverflowKernels.scaledDist fl o X Xp L i j) := by
  refine sqrt_up h (sum_up h ?_ o (covers_mem ho _)).1
  intro a ha
  rw [List.mem_ofFn] at ha
  obtain ⟨k, rfl⟩ := ha
  refine mul_self_up h ?_
  dsimp only
  rw [overflow_scale hL, overflow_scale hL, (round_zpow h 1023 (by norm_num) (by norm_num) (hX k)).1,
    (round_zpow h 1023 (by norm_num) (by norm_num) (hXp k)).1, sub_fin]
  exact round_cases _

theorem sq_overflows (h : Nearest fl) {x : ℝ} (hx : (2 : ℝ) ^ (512 : ℤ) ≤ |x|) :
    Overflow.mul fl (Overflow.round fl x) (Overflow.round fl x) = .pinf := by
  have hD : (2 : ℝ) ^ (512 : ℤ) ∈ Double := double_half (by norm_num)
  rw [Overflow.round]
  split_ifs with h1 h2
  · rfl
  · rfl
  · have hb : (2 : ℝ) ^ (512 : ℤ) ≤ |fl x| := by
      rcases le_total 0 x with h0 | h0
      · rw [abs_of_nonneg h0] at hx
        exact (le_fl_of_le h hD hx).trans (le_abs_self _)
      · rw [abs_of_nonpos h0] at hx
        have := fl_le_of_le h (double_neg hD) (x := x) (by linarith)
        exact le_trans (by linarith) (neg_le_abs _)
    have h3 : (2 : ℝ) ^ 1024 ≤ fl x * fl x := by
      rw [← abs_mul_abs_self]
      have := mul_le_mul hb hb (by positivity) (abs_nonneg _)
      rwa [← zpow_add₀ (by norm_num), show (512 + 512 : ℤ) = ((1024 : ℕ) : ℤ) by norm_num,
        zpow_natCast] at this
    have h4 : (2 : ℝ) ^ 1024 ≤ fl (fl x * fl x) := by
      refine le_fl_of_le h ?_ h3
      have := double_half (e := ((1024 : ℕ) : ℤ)) (by norm_num)
      rwa [zpow_natCast] at this
    rw [mul_fin, Overflow.round, if_pos h4]

/-- Two inputs that are far apart have an infinite distance. -/
theorem dist_overflows (h : Nearest fl) (ho : o.Covers d) (hL : Stands L l)
    (hX : ∀ k, |X i k / l k| ≤ (2 : ℝ) ^ (1023 : ℤ)) (hXp : ∀ k, |Xp j k / l k| ≤ (2 : ℝ) ^ (1023 : ℤ))
    (hfar : ∃ k, (2 : ℝ) ^ (513 : ℤ) ≤ |X i k / l k - Xp j k / l k| ∧
      |X i k / l k| + |Xp j k / l k| ≤ 2 ^ 50 * |X i k / l k - Xp j k / l k|) :
    OverflowKernels.scaledDist fl o X Xp L i j = .pinf := by
  obtain ⟨k, hk, hk'⟩ := hfar
  have hs : ∀ k, Overflow.sub fl (OverflowKernels.scale fl L (X i) k)
      (OverflowKernels.scale fl L (Xp j) k) =
      Overflow.round fl (fl (X i k / l k) - fl (Xp j k / l k)) := fun k => by
    rw [overflow_scale hL, overflow_scale hL, (round_zpow h 1023 (by norm_num) (by norm_num) (hX k)).1,
      (round_zpow h 1023 (by norm_num) (by norm_num) (hXp k)).1, sub_fin]
  have key : (2 : ℝ) ^ (512 : ℤ) ≤ |fl (X i k / l k) - fl (Xp j k / l k)| := by
    have e1 := fl_error h (X i k / l k)
    have e2 := fl_error h (Xp j k / l k)
    generalize X i k / l k = a at *
    generalize Xp j k / l k = b at *
    have e3 : |a - b| ≤ |fl a - fl b| + |fl a - a| + |fl b - b| := by
      have : a - b = (fl a - fl b) - (fl a - a) + (fl b - b) := by ring
      rw [this]
      exact (abs_add_le _ _).trans (add_le_add (abs_sub _ _) le_rfl)
    have e4 : (2 : ℝ) ^ (-1075 : ℤ) ≤ 1 := zpow_le_one_of_nonpos₀ (by norm_num) (by norm_num)
    have e5 : (2 : ℝ) ^ (513 : ℤ) = 2 * (2 : ℝ) ^ (512 : ℤ) := by
      rw [show (513 : ℤ) = 1 + 512 by norm_num, zpow_add₀ (by norm_num)]
      norm_num
    have e6 : (8 : ℝ) ≤ (2 : ℝ) ^ (512 : ℤ) := by
      rw [show (8 : ℝ) = (2 : ℝ) ^ (3 : ℤ) by norm_num]
      exact zpow_le_zpow_right₀ (by norm_num) (by norm_num)
    generalize (2 : ℝ) ^ (512 : ℤ) = M at *
    generalize (2 : ℝ) ^ (-1075 : ℤ) = t at *
    rw [e5] at hk
    clear hX hXp hs e5
    norm_num at e1 e2 hk'
    linarith
  have hp : OverflowKernels.sqrt fl .pinf = .pinf := rfl
  refine (congrArg (OverflowKernels.sqrt fl) ?_).trans hp
  refine (sum_up h ?_ o (covers_mem ho _)).2 ⟨k, ho.mem_iff.2 (List.mem_range.2 k.isLt), ?_⟩
  · intro a ha
    rw [List.mem_ofFn] at ha
    obtain ⟨k, rfl⟩ := ha
    refine mul_self_up h ?_
    dsimp only
    rw [hs]
    exact round_cases _
  · simp only [hs, List.getElem?_ofFn, k.isLt, dite_true]
    exact congrArg some (sq_overflows h key)

/-! ### Entries -/

theorem fl_const_pos (h : Nearest fl) {c : ℝ} (hc : 1 ≤ c) : 0 < fl c ∧ fl (-1 * fl c) < 0 := by
  have h1 : (1 : ℝ) ∈ Double := by simpa using double_nat (m := 1) (by norm_num)
  have h2 : 1 ≤ fl c := le_fl_of_le h h1 hc
  have h3 : fl (-1 * fl c) ≤ -1 := fl_le_of_le h (double_neg h1) (by linarith)
  exact ⟨by linarith, by linarith⟩

theorem covSe_far (h : Nearest fl) (hd : OverflowKernels.scaledDist fl o X Xp L i j = .pinf) {s : ℝ}
    (hs : fl (s ^ 2) < 2 ^ 1024) : OverflowKernels.cov fl ex o .se X Xp L s i j = .fin 0 := by
  have h0 := fl_nonneg h (sq_nonneg s)
  have e : Overflow.round fl (s ^ 2) = .fin (fl (s ^ 2)) := round_fin (by rwa [abs_of_nonneg h0])
  have e1 : Overflow.mul fl (.fin (-0.5)) .pinf = .ninf := by
    simp only [Overflow.mul, Overflow.signedInf]
    norm_num
  simp only [OverflowKernels.cov, OverflowKernels.covSe, hd, e]
  rw [show Overflow.mul fl .pinf .pinf = .pinf from rfl, e1]
  simp only [OverflowKernels.exp, mul_fin, mul_zero]
  rw [round_fin (by rw [fl_zero h]; simp), fl_zero h]

theorem covMatern_far (h : Nearest fl) (hd : OverflowKernels.scaledDist fl o X Xp L i j = .pinf) {s : ℝ}
    (hs : fl (s ^ 2) < 2 ^ 1024) (hs0 : 0 < fl (s ^ 2)) {c : CovName} (hc : c ≠ .se) :
    OverflowKernels.cov fl ex o c X Xp L s i j = .nan := by
  have e : Overflow.round fl (s ^ 2) = .fin (fl (s ^ 2)) := round_fin (by rwa [abs_of_pos hs0])
  have pos : ∀ {a : ℝ}, 0 < a → Overflow.mul fl (.fin a) .pinf = .pinf := fun ha => by
    simp [Overflow.mul, Overflow.signedInf, ha]
  have neg : ∀ {a : ℝ}, a < 0 → Overflow.mul fl (.fin a) .pinf = .ninf := fun ha => by
    simp [Overflow.mul, Overflow.signedInf, ha, ha.le]
  have last : Overflow.mul fl .pinf (.fin 0) = .nan := by simp [Overflow.mul, Overflow.signedInf]
  obtain ⟨p3, n3⟩ := fl_const_pos h (c := √3) (Real.one_le_sqrt.2 (by norm_num))
  obtain ⟨p5, n5⟩ := fl_const_pos h (c := √5) (Real.one_le_sqrt.2 (by norm_num))
  have p53 := (fl_const_pos h (c := 5 / 3) (by norm_num)).1
  cases c with
  | se => exact absurd rfl hc
  | matern32 =>
    simp only [OverflowKernels.cov, OverflowKernels.covMatern32, hd, e, pos p3, neg n3,
      (add_pinf (.inl ⟨1, by norm_num, rfl⟩ : Up (.fin 1))).1, pos hs0, OverflowKernels.exp, last]
  | matern52 =>
    simp only [OverflowKernels.cov, OverflowKernels.covMatern52, hd, e, pos p5, neg n5,
      (add_pinf (.inl ⟨1, by norm_num, rfl⟩ : Up (.fin 1))).1, pos hs0, OverflowKernels.exp, last,
      show Overflow.mul fl .pinf .pinf = .pinf from rfl, pos p53, (add_pinf (.inr rfl : Up .pinf)).1]

/-- Squared exponential covariances are numbers. -/
theorem covSe_up (h : Nearest fl) {η : ℝ} (hex : ExpWithin η ex)
    (hd : Up (OverflowKernels.scaledDist fl o X Xp L i j)) {s : ℝ} (hs : fl (s ^ 2) < 2 ^ 1024) :
    ∃ v, OverflowKernels.cov fl ex o .se X Xp L s i j = .fin v ∧ 0 ≤ v ∧ v ≤ fl (s ^ 2) ∧ v ∈ Double := by
  have h0 := fl_nonneg h (sq_nonneg s)
  have e : Overflow.round fl (s ^ 2) = .fin (fl (s ^ 2)) := round_fin (by rwa [abs_of_nonneg h0])
  have key : ∀ a : Flt, Up a → ∃ v, Overflow.mul fl (.fin (fl (s ^ 2)))
      (OverflowKernels.exp ex (Overflow.mul fl (.fin (-0.5)) a)) = .fin v ∧ 0 ≤ v ∧ v ≤ fl (s ^ 2) ∧
      v ∈ Double := by
    have fin : ∀ q, 0 ≤ q → q ≤ 1 → ∃ v, Overflow.mul fl (.fin (fl (s ^ 2))) (.fin q) = .fin v ∧ 0 ≤ v ∧
        v ≤ fl (s ^ 2) ∧ v ∈ Double := by
      intro q q0 q1
      have h1 := fl_nonneg h (mul_nonneg h0 q0)
      have h2 : fl (fl (s ^ 2) * q) ≤ fl (s ^ 2) := fl_le_of_le h (h.mem _) (mul_le_of_le_one_right h0 q1)
      refine ⟨fl (fl (s ^ 2) * q), ?_, h1, h2, h.mem _⟩
      rw [mul_fin, round_fin]
      rw [abs_of_nonneg h1]
      exact h2.trans_lt hs
    rintro a (⟨x, hx, rfl⟩ | rfl)
    · have h1 : fl (-0.5 * x) ≤ 0 := fl_le_of_le h double_zero (by linarith)
      rw [mul_fin, Overflow.round]
      split_ifs with h2 h3
      · exact absurd (h2.trans h1) (not_le.2 overflow_pos)
      · exact fin 0 le_rfl zero_le_one
      · exact fin _ (hex.nonneg _ h1) (hex.le_one _ h1)
    · have e1 : Overflow.mul fl (.fin (-0.5)) .pinf = .ninf := by
        simp only [Overflow.mul, Overflow.signedInf]
        norm_num
      rw [e1]
      exact fin 0 le_rfl zero_le_one
  have hsq : Up (Overflow.mul fl (OverflowKernels.scaledDist fl o X Xp L i j)
      (OverflowKernels.scaledDist fl o X Xp L i j)) := by
    refine mul_self_up h ?_
    rcases hd with ⟨x, -, hx⟩ | hx <;> rw [hx] <;> simp
  simp only [OverflowKernels.cov, OverflowKernels.covSe, e]
  exact key _ hsq

/-! ### Nothing overflows -/

theorem dist_agrees (h : Nearest fl) (ho : o.Covers d) (hd : d ≤ 2 ^ 20) (hL : Stands L l)
    (hX : ∀ k, |X i k / l k| ≤ (2 : ℝ) ^ (200 : ℤ)) (hXp : ∀ k, |Xp j k / l k| ≤ (2 : ℝ) ^ (200 : ℤ)) :
    OverflowKernels.scaledDist fl o X Xp L i j =
        .fin (RoundedKernels.scaledDist fl o X Xp L i j) ∧
      RoundedKernels.scaledDist fl o X Xp L i j ≤ (2 : ℝ) ^ (211 : ℤ) := by
  set q : Fin d → ℝ := fun k =>
    fl (fl (RoundedKernels.scale fl L (X i) k - RoundedKernels.scale fl L (Xp j) k) ^ 2) with hq
  have hk : ∀ k, Overflow.mul fl
      (Overflow.sub fl (OverflowKernels.scale fl L (X i) k) (OverflowKernels.scale fl L (Xp j) k))
      (Overflow.sub fl (OverflowKernels.scale fl L (X i) k) (OverflowKernels.scale fl L (Xp j) k)) =
      .fin (q k) ∧ |q k| ≤ (2 : ℝ) ^ (402 : ℤ) := by
    intro k
    obtain ⟨a1, a2⟩ := round_zpow h 200 (by norm_num) (by norm_num) (hX k)
    obtain ⟨b1, b2⟩ := round_zpow h 200 (by norm_num) (by norm_num) (hXp k)
    have h1 : |fl (X i k / l k) - fl (Xp j k / l k)| ≤ (2 : ℝ) ^ (201 : ℤ) := by
      refine (abs_sub _ _).trans ?_
      rw [show (201 : ℤ) = 200 + 1 by norm_num, zpow_add₀ (by norm_num), zpow_one]
      linarith
    obtain ⟨c1, c2⟩ := round_zpow h 201 (by norm_num) (by norm_num) h1
    have h2 : |fl (fl (X i k / l k) - fl (Xp j k / l k)) ^ 2| ≤ (2 : ℝ) ^ (402 : ℤ) := by
      rw [abs_pow, show (402 : ℤ) = 201 + 201 by norm_num, zpow_add₀ (by norm_num), pow_two]
      exact mul_le_mul c2 c2 (abs_nonneg _) (by positivity)
    obtain ⟨d1, d2⟩ := round_zpow h 402 (by norm_num) (by norm_num) h2
    simp only [hq, scale_stands hL, overflow_scale hL, a1, b1, sub_fin, c1, mul_fin, ← pow_two]
    exact ⟨d1, d2⟩
  have hlen : o.entries.length = d := by simpa using ho.length_eq
  have hd' : (d : ℝ) ≤ (2 : ℝ) ^ (20 : ℤ) := by
    rw [show (2 : ℝ) ^ (20 : ℤ) = 2 ^ 20 by norm_num]
    exact_mod_cast hd
  have hb : (d : ℝ) * (2 : ℝ) ^ (402 : ℤ) ≤ (2 : ℝ) ^ (422 : ℤ) := by
    rw [show (422 : ℤ) = 20 + 402 by norm_num, zpow_add₀ (by norm_num)]
    exact mul_le_mul_of_nonneg_right hd' (by positivity)
  obtain ⟨s1, s2⟩ := sumF_fin h (m := 402) (by norm_num) (List.ofFn q)
    (by
      intro x hx
      rw [List.mem_ofFn] at hx
      obtain ⟨k, rfl⟩ := hx
      exact (hk k).2) o (covers_mem ho q) (by rw [hlen]; exact hd.trans (by norm_num))
    (by rw [hlen]; exact hb.trans_lt (zpow_lt_overflow (by norm_num)))
  rw [hlen] at s2
  have s3 := s2.trans hb
  have e1 : (List.ofFn fun k => Overflow.mul fl
      (Overflow.sub fl (OverflowKernels.scale fl L (X i) k) (OverflowKernels.scale fl L (Xp j) k))
      (Overflow.sub fl (OverflowKernels.scale fl L (X i) k) (OverflowKernels.scale fl L (Xp j) k))) =
      (List.ofFn q).map Flt.fin := by
    rw [List.map_ofFn]
    congr 1
    ext1 k
    exact (hk k).1
  have s0 : 0 ≤ sumR fl (List.ofFn q) o := by
    rw [← sumList_eq]
    refine sumList_nonneg h ?_ o
    intro x hx
    rw [List.mem_ofFn] at hx
    obtain ⟨k, rfl⟩ := hx
    exact fl_nonneg h (sq_nonneg _)
  have h5 : |√(sumR fl (List.ofFn q) o)| ≤ (2 : ℝ) ^ (211 : ℤ) := by
    rw [abs_of_nonneg (Real.sqrt_nonneg _)]
    refine Real.sqrt_le_iff.2 ⟨by positivity, ?_⟩
    rw [abs_of_nonneg s0] at s3
    rw [pow_two, ← zpow_add₀ (by norm_num)]
    exact s3
  obtain ⟨f1, f2⟩ := round_zpow h 211 (by norm_num) (by norm_num) h5
  have e2 : RoundedKernels.scaledDist fl o X Xp L i j = fl √(sumR fl (List.ofFn q) o) := by
    rw [RoundedKernels.scaledDist, sumList_eq]
  rw [e2]
  refine ⟨?_, (le_abs_self _).trans f2⟩
  simp only [OverflowKernels.scaledDist]
  rw [e1, s1, sqrt_fin s0, f1]

theorem cov_agrees (h : Nearest fl) {η : ℝ} (hex : ExpWithin η ex) (ho : o.Covers d) (hd : d ≤ 2 ^ 20)
    (hL : Stands L l) (hX : ∀ k, |X i k / l k| ≤ (2 : ℝ) ^ (200 : ℤ))
    (hXp : ∀ k, |Xp j k / l k| ≤ (2 : ℝ) ^ (200 : ℤ)) {s : ℝ} (hs : |s| ≤ (2 : ℝ) ^ (250 : ℤ))
    (c : CovName) :
    OverflowKernels.cov fl ex o c X Xp L s i j = .fin (RoundedKernels.cov fl ex o c X Xp L s i j) ∧
      |RoundedKernels.cov fl ex o c X Xp L s i j| ≤ (2 : ℝ) ^ (930 : ℤ) := by
  obtain ⟨hx, hx1⟩ := dist_agrees h ho hd hL hX hXp
  have hx0 : 0 ≤ RoundedKernels.scaledDist fl o X Xp L i j := scaledDist_nonneg h X Xp i j
  have add2 : ∀ m : ℤ, (2 : ℝ) ^ (m + 1) = (2 : ℝ) ^ m + (2 : ℝ) ^ m := fun m => by
    rw [zpow_add₀ (by norm_num), zpow_one]
    ring
  have up : ∀ {a b : ℤ}, a ≤ b → (2 : ℝ) ^ a ≤ (2 : ℝ) ^ b := fun hab =>
    zpow_le_zpow_right₀ (by norm_num) hab
  have rnd : ∀ {x : ℝ} (m : ℤ), -1074 ≤ m → m < 1024 → |x| ≤ (2 : ℝ) ^ m →
      Overflow.round fl x = .fin (fl x) ∧ |fl x| ≤ (2 : ℝ) ^ m := fun m => round_zpow h m
  have prod : ∀ {x y : ℝ} (a b : ℤ), |x| ≤ (2 : ℝ) ^ a → |y| ≤ (2 : ℝ) ^ b → |x * y| ≤ (2 : ℝ) ^ (a + b) :=
    fun a b hx hy => by
      rw [abs_mul, zpow_add₀ (by norm_num)]
      exact mul_le_mul hx hy (abs_nonneg _) (by positivity)
  have sum : ∀ {x y : ℝ} (a : ℤ), |x| ≤ (2 : ℝ) ^ a → |y| ≤ (2 : ℝ) ^ a → |x + y| ≤ (2 : ℝ) ^ (a + 1) :=
    fun a hx hy => by
      rw [add2]
      exact (abs_add_le _ _).trans (add_le_add hx hy)
  have one : |(1 : ℝ)| ≤ (2 : ℝ) ^ (0 : ℤ) := by simp
  have hs2 : |s ^ 2| ≤ (2 : ℝ) ^ (500 : ℤ) := by
    rw [pow_two]
    exact prod 250 250 hs hs
  obtain ⟨w1, w2⟩ := rnd 500 (by norm_num) (by norm_num) hs2
  have hxa : |RoundedKernels.scaledDist fl o X Xp L i j| ≤ (2 : ℝ) ^ (211 : ℤ) := by
    rwa [abs_of_nonneg hx0]
  obtain ⟨q1, q2⟩ := rnd 422 (by norm_num) (by norm_num) (prod 211 211 hxa hxa)
  have hexp : ∀ {z : ℝ}, z ≤ 0 → |ex z| ≤ (2 : ℝ) ^ (0 : ℤ) := fun hz => by
    rw [abs_of_nonneg (hex.nonneg _ hz), zpow_zero]
    exact hex.le_one _ hz
  -- a constant from one up to four
  have const : ∀ {r : ℝ}, 1 ≤ r → r ≤ 4 → |fl r| ≤ (2 : ℝ) ^ (2 : ℤ) ∧
      |fl (-1 * fl r)| ≤ (2 : ℝ) ^ (2 : ℤ) ∧ fl (-1 * fl r) ≤ 0 := fun {r} h1 h4 => by
    have a1 := (rnd (x := r) 2 (by norm_num) (by norm_num) (by
      rw [abs_of_nonneg (by linarith)]
      norm_num
      exact h4)).2
    refine ⟨a1, (rnd 2 (by norm_num) (by norm_num) (by rwa [neg_one_mul, abs_neg])).2, ?_⟩
    exact fl_le_of_le h double_zero (by
      have := fl_nonneg h (show (0 : ℝ) ≤ r by linarith)
      linarith)
  have h3 : √3 ≤ 4 := Real.sqrt_le_iff.2 ⟨by norm_num, by norm_num⟩
  have h5 : √5 ≤ 4 := Real.sqrt_le_iff.2 ⟨by norm_num, by norm_num⟩
  obtain ⟨c3, m3, n3⟩ := const (Real.one_le_sqrt.2 (by norm_num : (1 : ℝ) ≤ 3)) h3
  obtain ⟨c5, m5, n5⟩ := const (Real.one_le_sqrt.2 (by norm_num : (1 : ℝ) ≤ 5)) h5
  obtain ⟨c53, -, -⟩ := const (show (1 : ℝ) ≤ 5 / 3 by norm_num) (by norm_num)
  cases c with
  | se =>
    obtain ⟨r1, r2⟩ := rnd 422 (by norm_num) (by norm_num)
      (prod (x := -0.5) 0 422 (by norm_num [abs_of_nonneg]) q2)
    have z0 : fl (-0.5 * fl (RoundedKernels.scaledDist fl o X Xp L i j *
        RoundedKernels.scaledDist fl o X Xp L i j)) ≤ 0 := fl_le_of_le h double_zero (by
      have := fl_nonneg h (mul_self_nonneg (RoundedKernels.scaledDist fl o X Xp L i j))
      linarith)
    obtain ⟨t1, t2⟩ := rnd 500 (by norm_num) (by norm_num) (prod 500 0 w2 (hexp z0))
    rw [← pow_two] at q1 r1 t1 t2
    simp only [OverflowKernels.cov, OverflowKernels.covSe, RoundedKernels.cov, RoundedKernels.covSe, hx,
      w1, mul_fin, ← pow_two, q1, r1, OverflowKernels.exp, t1]
    exact ⟨trivial, t2.trans (up (by norm_num))⟩
  | matern32 =>
    obtain ⟨r1, r2⟩ := rnd 213 (by norm_num) (by norm_num) (prod 2 211 c3 hxa)
    obtain ⟨p1, p2⟩ := rnd 214 (by norm_num) (by norm_num) (sum 213 (one.trans (up (by norm_num))) r2)
    obtain ⟨u1, u2⟩ := rnd 714 (by norm_num) (by norm_num) (prod 500 214 w2 p2)
    obtain ⟨v1, v2⟩ := rnd 213 (by norm_num) (by norm_num) (prod 2 211 m3 hxa)
    have z0 := fl_le_of_le h double_zero (mul_nonpos_of_nonpos_of_nonneg n3 hx0)
    obtain ⟨t1, t2⟩ := rnd 714 (by norm_num) (by norm_num) (prod 714 0 u2 (hexp z0))
    simp only [OverflowKernels.cov, OverflowKernels.covMatern32, RoundedKernels.cov,
      RoundedKernels.covMatern32, hx, w1, mul_fin, add_fin, r1, p1, u1, v1, OverflowKernels.exp, t1]
    exact ⟨trivial, t2.trans (up (by norm_num))⟩
  | matern52 =>
    obtain ⟨r1, r2⟩ := rnd 213 (by norm_num) (by norm_num) (prod 2 211 c5 hxa)
    obtain ⟨p1, p2⟩ := rnd 214 (by norm_num) (by norm_num) (sum 213 (one.trans (up (by norm_num))) r2)
    obtain ⟨y1, y2⟩ := rnd 424 (by norm_num) (by norm_num) (prod 2 422 c53 q2)
    obtain ⟨g1, g2⟩ := rnd 425 (by norm_num) (by norm_num) (sum 424 (p2.trans (up (by norm_num))) y2)
    obtain ⟨u1, u2⟩ := rnd 925 (by norm_num) (by norm_num) (prod 500 425 w2 g2)
    obtain ⟨v1, v2⟩ := rnd 213 (by norm_num) (by norm_num) (prod 2 211 m5 hxa)
    have z0 := fl_le_of_le h double_zero (mul_nonpos_of_nonpos_of_nonneg n5 hx0)
    obtain ⟨t1, t2⟩ := rnd 925 (by norm_num) (by norm_num) (prod 925 0 u2 (hexp z0))
    rw [← pow_two] at q1 y1 g1 u1 t1 t2
    simp only [OverflowKernels.cov, OverflowKernels.covMatern52, RoundedKernels.cov,
      RoundedKernels.covMatern52, hx, w1, mul_fin, add_fin, ← pow_two, q1, r1, p1, y1, g1, u1, v1,
      OverflowKernels.exp, t1]
    exact ⟨trivial, t2.trans (up (by norm_num))⟩

end distance

/-! ### Matrices -/

theorem overflowCovMain_ok {n m d : ℕ} {o : SumOrder} {name : String} (hn : name ∈ baseNames)
    {h : HypDict} {σ s : ℝ} {l : Fin d → ℝ} (hd : Describes h σ s l) (X : Fin n → Point d)
    (Xp : Fin m → Point d) (same : Bool) (hs : same = true → n = m) :
    ∃ c L, chooseFunCov name = .ok c ∧ Stands L l ∧
      OverflowKernels.covMain fl ex o name X Xp h same = .ok (fun i j =>
        Overflow.add fl (.fin (if same = true ∧ i.val = j.val then fl Constants.JITTER_COV else 0))
          (OverflowKernels.cov fl ex o c X Xp L s i j)) ∧
      RoundedKernels.covMain fl ex o name X Xp h same = .ok (fun i j =>
        fl ((if same = true ∧ i.val = j.val then fl Constants.JITTER_COV else 0) +
          RoundedKernels.cov fl ex o c X Xp L s i j)) := by
  obtain ⟨c, hc, -⟩ := chooseFunCov_ok hn
  obtain ⟨L, hL, hst, -⟩ := lengthscalesKey_ok hd
  have hv := validate_describes hd (base_allowed' hn)
  have hsig : numKey h.signal = .ok s := by rw [hd.signal]; exact numKey_fin s
  have h1 := base_allowed' hn
  have h2 := base_allowed hn
  refine ⟨c, L, hc, hst, ?_, ?_⟩
  · cases same with
    | false =>
      simp only [OverflowKernels.covMain, pyAssert, h1, if_true, h2, hv, hc, hL, hsig, bind,
        Except.bind, pure, Except.pure, Bool.false_eq_true, if_false, false_and]
      rfl
    | true =>
      have hnm := hs rfl
      simp only [OverflowKernels.covMain, pyAssert, h1, if_true, h2, hv, hc, hL, hsig, bind,
        Except.bind, pure, Except.pure, hnm, true_and]
      refine congrArg Except.ok ?_
      ext1 i
      ext1 j
      simp [npEye]
  · cases same with
    | false =>
      simp only [RoundedKernels.covMain, pyAssert, h1, if_true, h2, hv, hc, hL, hsig, bind,
        Except.bind, pure, Except.pure, Bool.false_eq_true, if_false, false_and]
      rfl
    | true =>
      have hnm := hs rfl
      simp only [RoundedKernels.covMain, pyAssert, h1, if_true, h2, hv, hc, hL, hsig, bind,
        Except.bind, pure, Except.pure, hnm, true_and]
      refine congrArg Except.ok ?_
      ext i j
      simp [npEye]

/-- The kernel matrix from its covariances. -/
theorem overflowKernelMatrix_ok {n d : ℕ} {o : SumOrder} {name : String} (hn : name ∈ baseNames)
    {h : HypDict} {σ s : ℝ} {l : Fin d → ℝ} (hd : Describes h σ s l) {X : Fin n → Point d}
    {A : Fin n → Fin n → Flt} (hA : OverflowKernels.covMain fl ex o name X X h true = .ok A) :
    OverflowKernels.kernelMatrix fl ex o X h name = .ok (fun i j => Overflow.divPos fl (Overflow.add fl
      (Overflow.add fl (A i j) (Overflow.mul fl (Overflow.round fl (σ ^ 2)) (.fin (npEye n n i j))))
      (Overflow.add fl (A j i) (Overflow.mul fl (Overflow.round fl (σ ^ 2)) (.fin (npEye n n j i)))))
      (.fin 2)) := by
  have hno : numKey h.noise = .ok σ := by rw [hd.noise]; exact numKey_fin σ
  have hch : checkStrCov name 2 = .ok () := by
    simp [checkStrCov, base_allowed hn, pyAssert, bind, Except.bind, pure, Except.pure]
  simp only [OverflowKernels.kernelMatrix, hch, hA, hno, bind, Except.bind, pure, Except.pure]

/-- Finite covariances that are not too large give a finite kernel matrix. -/
theorem overflowKernelMatrix_fin (hf : Nearest fl) {n d : ℕ} {o : SumOrder} {name : String}
    (hn : name ∈ baseNames) {h : HypDict} {σ s : ℝ} {l : Fin d → ℝ} (hd : Describes h σ s l)
    (hσ : |σ| ≤ (2 : ℝ) ^ (500 : ℤ)) {X : Fin n → Point d} {v : Matrix (Fin n) (Fin n) ℝ}
    (hv : ∀ i j, |v i j| ≤ (2 : ℝ) ^ (1001 : ℤ))
    (hA : OverflowKernels.covMain fl ex o name X X h true = .ok fun i j => .fin (v i j)) :
    OverflowKernels.kernelMatrix fl ex o X h name = .ok (fun i j => .fin (fl (fl (
      fl (v i j + fl (σ ^ 2) * npEye n n i j) + fl (v j i + fl (σ ^ 2) * npEye n n j i)) / 2))) := by
  have add2 : ∀ m : ℤ, (2 : ℝ) ^ (m + 1) = (2 : ℝ) ^ m + (2 : ℝ) ^ m := fun m => by
    rw [zpow_add₀ (by norm_num), zpow_one]
    ring
  have sum : ∀ {x y : ℝ} (a : ℤ), |x| ≤ (2 : ℝ) ^ a → |y| ≤ (2 : ℝ) ^ a → |x + y| ≤ (2 : ℝ) ^ (a + 1) :=
    fun a hx hy => by
      rw [add2]
      exact (abs_add_le _ _).trans (add_le_add hx hy)
  have hs2 : |σ ^ 2| ≤ (2 : ℝ) ^ (1000 : ℤ) := by
    rw [pow_two, abs_mul, show (1000 : ℤ) = 500 + 500 by norm_num, zpow_add₀ (by norm_num)]
    exact mul_le_mul hσ hσ (abs_nonneg _) (by positivity)
  obtain ⟨w1, w2⟩ := round_zpow hf 1000 (by norm_num) (by norm_num) hs2
  have he : ∀ i j : Fin n, Overflow.round fl (fl (σ ^ 2) * npEye n n i j) =
      .fin (fl (σ ^ 2) * npEye n n i j) ∧ |fl (σ ^ 2) * npEye n n i j| ≤ (2 : ℝ) ^ (1001 : ℤ) := by
    intro i j
    have hle : (2 : ℝ) ^ (1000 : ℤ) ≤ (2 : ℝ) ^ (1001 : ℤ) :=
      zpow_le_zpow_right₀ (by norm_num) (by norm_num)
    by_cases hij : i.val = j.val
    · simp only [npEye, hij, if_true, mul_one]
      have := round_zpow hf 1000 (by norm_num) (by norm_num) w2
      rw [fl_of_mem hf (hf.mem _)] at this
      exact ⟨this.1, w2.trans hle⟩
    · simp only [npEye, hij, if_false, mul_zero, abs_zero]
      refine ⟨?_, by positivity⟩
      have := (round_zpow hf (x := 0) 0 (by norm_num) (by norm_num) (by simp)).1
      rwa [fl_zero hf] at this
  rw [overflowKernelMatrix_ok hn hd hA]
  refine congrArg Except.ok ?_
  ext1 i
  ext1 j
  obtain ⟨a1, a2⟩ := round_zpow hf 1002 (by norm_num) (by norm_num) (sum 1001 (hv i j) (he i j).2)
  obtain ⟨b1, b2⟩ := round_zpow hf 1002 (by norm_num) (by norm_num) (sum 1001 (hv j i) (he j i).2)
  obtain ⟨c1, c2⟩ := round_zpow hf 1003 (by norm_num) (by norm_num) (sum 1002 a2 b2)
  have d1 := (round_zpow hf (x := fl (fl (v i j + fl (σ ^ 2) * npEye n n i j) +
      fl (v j i + fl (σ ^ 2) * npEye n n j i)) / 2) 1003 (by norm_num) (by norm_num) (by
    rw [abs_div, abs_two]
    exact (half_le_self (abs_nonneg _)).trans c2)).1
  rw [w1, mul_fin, mul_fin, (he i j).1, (he j i).1, add_fin, add_fin, a1, b1, add_fin, c1, divPos_fin, d1]

theorem roundedKernelMatrix_of {n d : ℕ} {o : SumOrder} {name : String} (hn : name ∈ baseNames)
    {h : HypDict} {σ s : ℝ} {l : Fin d → ℝ} (hd : Describes h σ s l) {X : Fin n → Point d}
    {v : Matrix (Fin n) (Fin n) ℝ} (hA : RoundedKernels.covMain fl ex o name X X h true = .ok v) :
    RoundedKernels.kernelMatrix fl ex o X h name = .ok (fun i j => fl (fl (
      fl (v i j + fl (σ ^ 2) * npEye n n i j) + fl (v j i + fl (σ ^ 2) * npEye n n j i)) / 2)) := by
  have hno : numKey h.noise = .ok σ := by rw [hd.noise]; exact numKey_fin σ
  have hch : checkStrCov name 2 = .ok () := by
    simp [checkStrCov, base_allowed hn, pyAssert, bind, Except.bind, pure, Except.pure]
  simp only [RoundedKernels.kernelMatrix, hch, hA, hno, bind, Except.bind, pure, Except.pure]
  rfl

theorem matrixToDecompose_fin {n d : ℕ} {o : SumOrder} {name : String} {h : HypDict}
    {X : Fin n → Point d} {K : Matrix (Fin n) (Fin n) ℝ}
    (hK : OverflowKernels.kernelMatrix fl ex o X h name = .ok fun i j => .fin (K i j)) :
    OverflowKernels.matrixToDecompose fl ex o X h name = .ok K := by
  have hall : ∀ i j : Fin n, ∃ x, Flt.fin (K i j) = .fin x := fun i j => ⟨_, rfl⟩
  simp only [OverflowKernels.matrixToDecompose, hK, bind, Except.bind]
  refine (dif_pos hall).trans ?_
  refine congrArg Except.ok ?_
  ext i j
  exact (Flt.fin.inj (hall i j).choose_spec).symm

theorem matrixToDecompose_nan {n d : ℕ} {o : SumOrder} {name : String} {h : HypDict}
    {X : Fin n → Point d} {K : Fin n → Fin n → Flt} {i j : Fin n}
    (hK : OverflowKernels.kernelMatrix fl ex o X h name = .ok K) (hij : K i j = .nan) :
    OverflowKernels.matrixToDecompose fl ex o X h name = .error .value := by
  simp only [OverflowKernels.matrixToDecompose, hK, bind, Except.bind]
  refine dif_neg ?_
  intro hall
  obtain ⟨x, hx⟩ := hall i j
  rw [hij] at hx
  cases hx

/-- The jitter is at most one. -/
theorem fl_jitter (hf : Nearest fl) : 0 ≤ fl Constants.JITTER_COV ∧ fl Constants.JITTER_COV ≤ 1 :=
  ⟨fl_nonneg hf (by norm_num [Constants.JITTER_COV]),
    fl_le_of_le hf (by simpa using double_nat (m := 1) (by norm_num)) (by norm_num [Constants.JITTER_COV])⟩

/-- Covariances that are numbers stay numbers with the jitter. -/
theorem jitter_fin (hf : Nearest fl) {v : ℝ} (hv : |v| ≤ (2 : ℝ) ^ (1000 : ℤ)) (p : Prop) [Decidable p] :
    Overflow.add fl (.fin (if p then fl Constants.JITTER_COV else 0)) (.fin v) =
        .fin (fl ((if p then fl Constants.JITTER_COV else 0) + v)) ∧
      |fl ((if p then fl Constants.JITTER_COV else 0) + v)| ≤ (2 : ℝ) ^ (1001 : ℤ) := by
  rw [add_fin]
  refine round_zpow hf 1001 (by norm_num) (by norm_num) ?_
  obtain ⟨j0, j1⟩ := fl_jitter hf
  have h1 : (1 : ℝ) ≤ (2 : ℝ) ^ (1000 : ℤ) := one_le_zpow₀ (by norm_num) (by norm_num)
  have h2 : |if p then fl Constants.JITTER_COV else 0| ≤ (1 : ℝ) := by
    split_ifs
    · rwa [abs_of_nonneg j0]
    · simp
  rw [show (1001 : ℤ) = 1000 + 1 by norm_num, zpow_add₀ (by norm_num), zpow_one]
  refine (abs_add_le _ _).trans ((add_le_add h2 hv).trans ?_)
  generalize (2 : ℝ) ^ (1000 : ℤ) = M at h1
  linarith

end Verif.Lemmas
