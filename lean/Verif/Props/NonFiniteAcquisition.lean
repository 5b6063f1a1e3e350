import Verif.Model.NonFiniteAcquisition
import Verif.Props.Acquisition
import Verif.Lemmas.NonFinite

/-! # C132: acquisition functions on predictions and responses that are infinite or NaN, and without spread -/

namespace Verif.Props

open Verif.Acquisition Verif.Constants Verif.Spec Verif.NonFiniteAcquisition

/-- The least response as numpy sees it: NaN if there is one. -/
def LeastF (Y : List Flt) (b : Flt) : Prop :=
  (.nan ∈ Y ∧ b = .nan) ∨ (.nan ∉ Y ∧ b ∈ Y ∧ ∀ y ∈ Y, b ≤ y)

/-- Value, mean and deviation at the same place. -/
def AtF (ms ss vals : List Flt) (m s v : Flt) : Prop :=
  ∃ i : ℕ, ms[i]? = some m ∧ ss[i]? = some s ∧ vals[i]? = some v

/-- A deviation: not negative, perhaps infinite. -/
def IsDeviation (s : Flt) : Prop := s = .pinf ∨ ∃ x : ℝ, 0 ≤ x ∧ s = .fin x

theorem atF_zipWith {f : Flt → Flt → Flt} {ms ss : List Flt} {m s v : Flt}
    (h : AtF ms ss (List.zipWith f ms ss) m s v) : v = f m s := by
  obtain ⟨i, h1, h2, h3⟩ := h
  rw [List.getElem?_zipWith, h1, h2] at h3
  simpa using h3.symm

theorem le_of_not_lt_flt {a b : Flt} (ha : a ≠ .nan) (hb : b ≠ .nan) (h : ¬ a < b) : b ≤ a := by
  cases a with
  | fin x =>
    cases b with
    | fin y => exact le_of_not_gt (show ¬ x < y from h)
    | pinf => exact absurd trivial h
    | ninf => trivial
    | nan => exact absurd rfl hb
  | pinf => cases b <;> first | exact absurd rfl hb | trivial
  | ninf => cases b <;> first | exact absurd rfl hb | trivial | exact absurd trivial h
  | nan => exact absurd rfl ha

theorem leastF_unique {Y : List Flt} {b c : Flt} (h1 : LeastF Y b) (h2 : LeastF Y c) : b = c := by
  rcases h1 with ⟨a1, rfl⟩ | ⟨a1, a2, a3⟩ <;> rcases h2 with ⟨b1, rfl⟩ | ⟨b1, b2, b3⟩
  · rfl
  · exact absurd a1 b1
  · exact absurd b1 a1
  · have h3 := a3 c b2
    have h4 := b3 b a2
    have n1 : b ≠ .nan := fun h => a1 (h ▸ a2)
    have n2 : c ≠ .nan := fun h => b1 (h ▸ b2)
    cases b with
    | fin x =>
      cases c with
      | fin y => rw [le_antisymm (show x ≤ y from h3) (show y ≤ x from h4)]
      | pinf => exact h4.elim
      | ninf => exact h3.elim
      | nan => exact absurd rfl n2
    | pinf => cases c <;> first | rfl | exact h3.elim | exact absurd rfl n2
    | ninf => cases c <;> first | rfl | exact h4.elim | exact absurd rfl n2
    | nan => exact absurd rfl n1

theorem npMinF_least {Y : List Flt} {b : Flt} (h : LeastF Y b) : NonFinite.npMin Y = .ok b := by
  rcases h with ⟨h1, rfl⟩ | ⟨h1, h2, h3⟩
  · exact NonFinite.npMin_nan h1
  · obtain ⟨m, e, hm, hmin⟩ := NonFinite.npMin_bottom (List.ne_nil_of_mem h2) h1
    rw [e]
    have : LeastF Y m := .inr ⟨h1, hm, fun y hy =>
      le_of_not_lt_flt (fun e => h1 (e ▸ hy)) (fun e => h1 (e ▸ hm)) (hmin y hy)⟩
    rw [leastF_unique this (.inr ⟨h1, h2, h3⟩)]

theorem eiF_eq {ms ss Y : List Flt} {j : ℝ} {b : Flt} (hl : ms.length = ss.length) (hb : LeastF Y b) :
    NonFiniteAcquisition.ei ms ss Y j = .ok (List.zipWith (eiValue b j) ms ss) := by
  simp [NonFiniteAcquisition.ei, pyAssert, hl, bind, Except.bind, npMinF_least hb, pure, Except.pure]

theorem piF_eq {ms ss Y : List Flt} {j : ℝ} {b : Flt} (hl : ms.length = ss.length) (hb : LeastF Y b) :
    NonFiniteAcquisition.pi ms ss Y j =
      .ok (List.zipWith (fun m s => normCdfF (NonFiniteAcquisition.valZ b j m s)) ms ss) := by
  simp [NonFiniteAcquisition.pi, pyAssert, hl, bind, Except.bind, npMinF_least hb, pure, Except.pure,
    List.map_zipWith]

theorem aeiF_eq {ms ss Y : List Flt} {noise j : ℝ} {b : Flt} (hl : ms.length = ss.length)
    (hb : LeastF Y b) : NonFiniteAcquisition.aei ms ss Y noise j = .ok (List.zipWith (fun m s =>
      mul (eiValue b j m s) ((Flt.fin 1).sub
        (NonFinite.div (.fin noise) (s.sq.add (.fin (noise ^ 2))).sqrt))) ms ss) := by
  simp [NonFiniteAcquisition.aei, pyAssert, hl, bind, Except.bind, npMinF_least hb, pure, Except.pure]

theorem leastF_fin {Y : List ℝ} {b : ℝ} (h : IsBest Y b) : LeastF (Y.map Flt.fin) (.fin b) := by
  refine .inr ⟨by simp, List.mem_map_of_mem h.1, ?_⟩
  intro y hy
  obtain ⟨x, hx, rfl⟩ := List.mem_map.1 hy
  exact h.2 x hx

theorem eiValue_fin {b j m s : ℝ} (h : s + j ≠ 0) : eiValue (.fin b) j (.fin m) (.fin s) =
    .fin ((b - m) * normCdf ((b - m) / (s + j)) + s * normPdf ((b - m) / (s + j))) := by
  have e : b + -m = b - m := by ring
  simp [eiValue, NonFiniteAcquisition.valZ, Flt.sub, Flt.add, Flt.neg, NonFinite.div, h, normCdfF, normPdfF, mul, e]

/-- C132: on numbers with positive `std + jitter`, the functions give the values of the functions on
reals. -/
theorem C132_numbers (ms ss Y : List ℝ) (noise j b : ℝ) (hl : ms.length = ss.length) (hb : IsBest Y b)
    (hs : ∀ s ∈ ss, 0 < s + j) (hn : ∀ s ∈ ss, s ^ 2 + noise ^ 2 ≠ 0) :
    NonFiniteAcquisition.pi (ms.map .fin) (ss.map .fin) (Y.map .fin) j =
      (pi ms ss Y j).map (List.map .fin) ∧
    NonFiniteAcquisition.ei (ms.map .fin) (ss.map .fin) (Y.map .fin) j =
      (ei ms ss Y j).map (List.map .fin) ∧
    NonFiniteAcquisition.aei (ms.map .fin) (ss.map .fin) (Y.map .fin) noise j =
      (aei ms ss Y noise j).map (List.map .fin) := by
  have hl' : (ms.map Flt.fin).length = (ss.map Flt.fin).length := by simp [hl]
  have key : ∀ (f : Flt → Flt → Flt) (g : ℝ → ℝ → ℝ) (ms ss : List ℝ),
      (∀ m, ∀ s ∈ ss, f (.fin m) (.fin s) = .fin (g m s)) →
      List.zipWith f (ms.map .fin) (ss.map .fin) = (List.zipWith g ms ss).map .fin := by
    intro f g ms
    induction ms with
    | nil => intro ss _; simp
    | cons m t ih =>
      intro ss h
      cases ss with
      | nil => simp
      | cons s r =>
        simp only [List.map_cons, List.zipWith_cons_cons]
        rw [h m s (by simp), ih r fun m s hs => h m s (by simp [hs])]
  refine ⟨?_, ?_, ?_⟩
  · rw [piF_eq hl' (leastF_fin hb), pi_eq ms ss Y j b hl hb hs]
    refine congrArg Except.ok (key _ _ _ _ fun m s h => ?_)
    have e : b + -m = b - m := by ring
    simp [NonFiniteAcquisition.valZ, Flt.sub, Flt.add, Flt.neg, NonFinite.div, (hs s h).ne', normCdfF, e]
  · rw [eiF_eq hl' (leastF_fin hb), ei_eq ms ss Y j b hl hb hs]
    exact congrArg Except.ok (key _ _ _ _ fun m s h => eiValue_fin (hs s h).ne')
  · have h0 : (0 : ℝ) ∉ ss.map (· + j) := by
      intro h
      obtain ⟨s, hs', h⟩ := List.mem_map.1 h
      have := hs s hs'
      linarith
    have h2 : (0 : ℝ) ∉ ss.map (fun s => Real.sqrt (s ^ 2 + noise ^ 2)) := by
      intro h
      obtain ⟨s, hs', h⟩ := List.mem_map.1 h
      rw [Real.sqrt_eq_zero (by positivity)] at h
      exact hn s hs' h
    rw [aeiF_eq hl' (leastF_fin hb)]
    simp only [Acquisition.aei, pyAssert, hl, if_true, bind, Except.bind, npMin_ok.2 hb, guardDiv, h0, h2,
      if_false, pure, Except.pure]
    refine congrArg Except.ok (key _ _ _ _ fun m s h => ?_)
    have hq : 0 ≤ s ^ 2 + noise ^ 2 := by positivity
    have hr : √(s ^ 2 + noise ^ 2) ≠ 0 := by
      rw [Ne, Real.sqrt_eq_zero hq]
      exact hn s h
    rw [eiValue_fin (hs s h).ne']
    have e : s * s + noise ^ 2 = s ^ 2 + noise ^ 2 := by ring
    simp only [Flt.sq, Flt.add, Flt.sqrt, e, if_neg (not_lt.2 hq), NonFinite.div, if_neg hr, Flt.sub, Flt.neg, mul]
    rw [← sub_eq_add_neg]

/-- C132: where `std + jitter` is zero, the probability of improvement is one for a mean below the best
response, zero for a mean above it, and NaN for a mean that equals it. -/
theorem C132_pi_certain (ms ss Y vals : List Flt) (j b : ℝ) (hl : ms.length = ss.length)
    (hb : LeastF Y (.fin b)) (h : NonFiniteAcquisition.pi ms ss Y j = .ok vals) (m s : ℝ) (v : Flt)
    (h1 : AtF ms ss vals (.fin m) (.fin s) v) (hs : s + j = 0) :
    (m < b → v = .fin 1) ∧ (b < m → v = .fin 0) ∧ (m = b → v = .nan) := by
  rw [piF_eq hl hb, Except.ok.injEq] at h
  subst h
  rw [atF_zipWith h1]
  simp only [NonFiniteAcquisition.valZ, Flt.sub, Flt.neg, Flt.add, NonFinite.div, hs, if_true]
  refine ⟨fun hm => ?_, fun hm => ?_, fun hm => ?_⟩
  · rw [if_pos (by linarith)]
    rfl
  · rw [if_neg (by linarith), if_pos (by linarith)]
    rfl
  · rw [if_neg (by linarith), if_neg (by linarith)]
    rfl

/-- C132: a certain prediction (deviation zero, no jitter). Expected improvement is the improvement itself,
`max (best - mean) 0`, unless the mean equals the best response: then it is NaN, not zero. -/
theorem C132_ei_certain_partial (ms ss Y vals : List Flt) (b : ℝ) (hl : ms.length = ss.length)
    (hb : LeastF Y (.fin b)) (h : NonFiniteAcquisition.ei ms ss Y 0 = .ok vals) (m : ℝ) (v : Flt)
    (h1 : AtF ms ss vals (.fin m) (.fin 0) v) :
    (m ≠ b → v = .fin (max (b - m) 0)) ∧ (m = b → v = .nan) := by
  rw [eiF_eq hl hb, Except.ok.injEq] at h
  subst h
  rw [atF_zipWith h1]
  simp only [eiValue, NonFiniteAcquisition.valZ, Flt.sub, Flt.neg, Flt.add, NonFinite.div, add_zero, if_true]
  refine ⟨fun hm => ?_, fun hm => ?_⟩
  · rcases lt_or_gt_of_ne hm with hm | hm
    · rw [if_pos (by linarith), max_eq_left (by linarith)]
      simp [normCdfF, normPdfF, mul, Flt.add, sub_eq_add_neg]
    · rw [if_neg (by linarith), if_pos (by linarith), max_eq_right (by linarith)]
      simp [normCdfF, normPdfF, mul, Flt.add]
  · rw [if_neg (by linarith), if_neg (by linarith)]
    rfl

/-- C132: the unrestricted claim is false: a certain prediction that equals the best response has no improvement,
but the value is NaN. -/
theorem C132_ei_certain_violated : ∃ (ms ss Y vals : List Flt) (b m : ℝ), LeastF Y (.fin b) ∧
    NonFiniteAcquisition.ei ms ss Y 0 = .ok vals ∧ ∃ v, AtF ms ss vals (.fin m) (.fin 0) v ∧
      v ≠ .fin (max (b - m) 0) := by
  have hb : LeastF [.fin 1, .fin 2] (.fin 1) := leastF_fin (Y := [1, 2]) ⟨by simp, by
    intro y hy
    fin_cases hy <;> norm_num⟩
  have h := eiF_eq (ms := [.fin 1]) (ss := [.fin 0]) (j := 0) rfl hb
  have h1 : AtF [.fin 1] [.fin 0] (List.zipWith (eiValue (.fin 1) 0) [.fin 1] [.fin 0]) (.fin 1) (.fin 0)
      (eiValue (.fin 1) 0 (.fin 1) (.fin 0)) := ⟨0, rfl, rfl, rfl⟩
  refine ⟨_, _, _, _, 1, 1, hb, h, _, h1, ?_⟩
  have hn := (C132_ei_certain_partial [.fin 1] [.fin 0] _ _ 1 rfl hb h 1 _ h1).2 rfl
  intro e
  rw [hn] at e
  cases e

/-- C132: exactly when expected improvement is NaN. The best response `b`, the mean and the deviation may be
any floats (the deviation not negative), the jitter is not negative. -/
theorem C132_ei_nan_iff (ms ss Y vals : List Flt) (j : ℝ) (hj : 0 ≤ j) (b : Flt)
    (hl : ms.length = ss.length) (hb : LeastF Y b) (h : NonFiniteAcquisition.ei ms ss Y j = .ok vals)
    (m s v : Flt) (h1 : AtF ms ss vals m s v) (hs : s = .nan ∨ IsDeviation s) :
    v = .nan ↔ m = .nan ∨ s = .nan ∨ b = .nan ∨ m = .pinf ∨ b = .ninf ∨
      (s = .pinf ∧ (m = .ninf ∨ b = .pinf)) ∨ (m = b ∧ s = .fin 0 ∧ j = 0) := by
  rw [eiF_eq hl hb, Except.ok.injEq] at h
  subst h
  rw [atF_zipWith h1]
  rcases hs with rfl | rfl | ⟨x, hx, rfl⟩
  · cases m <;> cases b <;> simp [eiValue, NonFiniteAcquisition.valZ, Flt.sub, Flt.add, Flt.neg,
      NonFinite.div, normCdfF, normPdfF, mul, NonFinite.add_nan_right]
  · have := normPdf_pos 0
    cases m <;> cases b <;> simp [eiValue, NonFiniteAcquisition.valZ, Flt.sub, Flt.add, Flt.neg,
      NonFinite.div, normCdfF, normPdfF, mul, NonFinite.add_nan_right, this]
  · have hxj : ¬ x + j < 0 := by linarith
    have hz : x + j = 0 ↔ x = 0 ∧ j = 0 := by
      constructor
      · intro h
        constructor <;> linarith
      · rintro ⟨rfl, rfl⟩
        ring
    cases m with
    | fin m =>
      cases b with
      | fin b =>
        by_cases h0 : x + j = 0
        · obtain ⟨rfl, rfl⟩ := hz.1 h0
          rcases lt_trichotomy m b with hm | hm | hm
          · have a1 : m < b := hm
            simp [eiValue, NonFiniteAcquisition.valZ, Flt.sub, Flt.add, Flt.neg, NonFinite.div, normCdfF,
              normPdfF, mul, a1, a1.ne]
          · subst hm
            simp [eiValue, NonFiniteAcquisition.valZ, Flt.sub, Flt.add, Flt.neg, NonFinite.div, normCdfF,
              normPdfF, mul]
          · have a1 : b < m := hm
            simp [eiValue, NonFiniteAcquisition.valZ, Flt.sub, Flt.add, Flt.neg, NonFinite.div, normCdfF,
              normPdfF, mul, a1, a1.ne', not_lt.2 a1.le]
        · rw [eiValue_fin h0]
          rw [hz] at h0
          simp only [reduceCtorEq, false_iff, false_or, false_and, Flt.fin.injEq]
          tauto
      | _ => simp [eiValue, NonFiniteAcquisition.valZ, Flt.sub, Flt.add, Flt.neg, NonFinite.div, normCdfF,
          normPdfF, mul, hxj]
    | _ => cases b <;> simp [eiValue, NonFiniteAcquisition.valZ, Flt.sub, Flt.add, Flt.neg, NonFinite.div,
        normCdfF, normPdfF, mul, hxj]

/-- C132: exactly when the probability of improvement is NaN. -/
theorem C132_pi_nan_iff (ms ss Y vals : List Flt) (j : ℝ) (hj : 0 ≤ j) (b : Flt)
    (hl : ms.length = ss.length) (hb : LeastF Y b) (h : NonFiniteAcquisition.pi ms ss Y j = .ok vals)
    (m s v : Flt) (h1 : AtF ms ss vals m s v) (hs : s = .nan ∨ IsDeviation s) :
    v = .nan ↔ m = .nan ∨ s = .nan ∨ b = .nan ∨ (m = .pinf ∧ b = .pinf) ∨ (m = .ninf ∧ b = .ninf) ∨
      (s = .pinf ∧ (m = .pinf ∨ m = .ninf ∨ b = .pinf ∨ b = .ninf)) ∨
      (m = b ∧ s = .fin 0 ∧ j = 0) := by
  rw [piF_eq hl hb, Except.ok.injEq] at h
  subst h
  rw [atF_zipWith h1]
  rcases hs with rfl | rfl | ⟨x, hx, rfl⟩
  · cases m <;> cases b <;> simp [NonFiniteAcquisition.valZ, Flt.sub, Flt.add, Flt.neg, NonFinite.div,
      normCdfF]
  · cases m <;> cases b <;> simp [NonFiniteAcquisition.valZ, Flt.sub, Flt.add, Flt.neg, NonFinite.div,
      normCdfF]
  · have hxj : ¬ x + j < 0 := by linarith
    have hz : x + j = 0 ↔ x = 0 ∧ j = 0 := by
      constructor
      · intro h
        constructor <;> linarith
      · rintro ⟨rfl, rfl⟩
        ring
    cases m with
    | fin m =>
      cases b with
      | fin b =>
        by_cases h0 : x + j = 0
        · obtain ⟨rfl, rfl⟩ := hz.1 h0
          rcases lt_trichotomy m b with hm | hm | hm
          · have a1 : m < b := hm
            simp [NonFiniteAcquisition.valZ, Flt.sub, Flt.add, Flt.neg, NonFinite.div, normCdfF, a1, a1.ne]
          · subst hm
            simp [NonFiniteAcquisition.valZ, Flt.sub, Flt.add, Flt.neg, NonFinite.div, normCdfF]
          · have a1 : b < m := hm
            simp [NonFiniteAcquisition.valZ, Flt.sub, Flt.add, Flt.neg, NonFinite.div, normCdfF, a1, a1.ne',
              not_lt.2 a1.le]
        · simp only [NonFiniteAcquisition.valZ, Flt.sub, Flt.add, Flt.neg, NonFinite.div, h0, if_false,
            normCdfF, reduceCtorEq, false_iff, false_or, false_and, Flt.fin.injEq, and_false]
          rw [hz] at h0
          tauto
      | _ => simp [NonFiniteAcquisition.valZ, Flt.sub, Flt.add, Flt.neg, NonFinite.div, normCdfF, hxj]
    | _ => cases b <;> simp [NonFiniteAcquisition.valZ, Flt.sub, Flt.add, Flt.neg, NonFinite.div,
        normCdfF, hxj]

/-- C132: on numbers `ucb` gives the values of the function on reals. -/
theorem C132_ucb_numbers (ms ss : List ℝ) (Y : Option (List ℝ)) (kappa : ℝ) (inc : Bool) :
    NonFiniteAcquisition.ucb (ms.map .fin) (ss.map .fin) (Y.map (List.map .fin)) kappa inc =
      (ucb ms ss Y kappa inc).map (List.map .fin) := by
  have key : ∀ (k : ℝ) (ms ss : List ℝ),
      List.zipWith (fun m s : Flt => m.neg.add (mul (.fin k) s)) (ms.map .fin) (ss.map .fin) =
        (List.zipWith (fun m s => -m + k * s) ms ss).map .fin := by
    intro k ms
    induction ms with
    | nil => simp
    | cons m t ih =>
      intro ss
      cases ss with
      | nil => simp
      | cons s r =>
        simp only [List.map_cons, List.zipWith_cons_cons, ih]
        rfl
  unfold NonFiniteAcquisition.ucb Acquisition.ucb
  by_cases hl : ms.length = ss.length
  · cases inc <;> cases Y <;>
      simp [pyAssert, hl, bind, Except.bind, pure, Except.pure, key, Except.map]
  · simp [pyAssert, hl, bind, Except.bind, Except.map]

/-- C132: infinite predictions. A prediction of minus infinity is certain to improve; one of plus infinity is
certain not to, but its expected improvement is NaN; an infinite deviation gives probability one half and an
infinite expected improvement. -/
theorem C132_infinite (ms ss Y pis eis : List Flt) (j : ℝ) (hj : 0 ≤ j) (b : ℝ)
    (hl : ms.length = ss.length) (hb : LeastF Y (.fin b))
    (hp : NonFiniteAcquisition.pi ms ss Y j = .ok pis) (he : NonFiniteAcquisition.ei ms ss Y j = .ok eis)
    (p e : Flt) : (∀ s : ℝ, 0 ≤ s →
      (AtF ms ss pis .ninf (.fin s) p → p = .fin 1) ∧ (AtF ms ss eis .ninf (.fin s) e → e = .pinf) ∧
      (AtF ms ss pis .pinf (.fin s) p → p = .fin 0) ∧ (AtF ms ss eis .pinf (.fin s) e → e = .nan)) ∧
    ∀ m : ℝ, (AtF ms ss pis (.fin m) .pinf p → p = .fin (1 / 2)) ∧
      (AtF ms ss eis (.fin m) .pinf e → e = .pinf) := by
  rw [piF_eq hl hb, Except.ok.injEq] at hp
  rw [eiF_eq hl hb, Except.ok.injEq] at he
  subst hp he
  refine ⟨fun s hs => ⟨fun h => ?_, fun h => ?_, fun h => ?_, fun h => ?_⟩, fun m => ⟨fun h => ?_, fun h => ?_⟩⟩
  all_goals rw [atF_zipWith h]
  · simp [NonFiniteAcquisition.valZ, Flt.sub, Flt.add, Flt.neg, NonFinite.div, normCdfF,
      not_lt.2 (add_nonneg hs hj)]
  · simp [eiValue, NonFiniteAcquisition.valZ, Flt.sub, Flt.add, Flt.neg, NonFinite.div, normCdfF, normPdfF,
      mul, not_lt.2 (add_nonneg hs hj)]
  · simp [NonFiniteAcquisition.valZ, Flt.sub, Flt.add, Flt.neg, NonFinite.div, normCdfF,
      not_lt.2 (add_nonneg hs hj)]
  · simp [eiValue, NonFiniteAcquisition.valZ, Flt.sub, Flt.add, Flt.neg, NonFinite.div, normCdfF, normPdfF,
      mul, not_lt.2 (add_nonneg hs hj)]
  · have e0 : normCdf 0 = 1 / 2 := by
      have := normCdf_neg 0
      rw [neg_zero] at this
      linarith
    simp [NonFiniteAcquisition.valZ, Flt.sub, Flt.add, Flt.neg, NonFinite.div, normCdfF, e0]
  · have := normPdf_pos 0
    simp [eiValue, NonFiniteAcquisition.valZ, Flt.sub, Flt.add, Flt.neg, NonFinite.div, normCdfF, normPdfF,
      mul, this]

/-- C132: NaN among the responses makes every value of `pi`, `ei` and `aei` NaN; a NaN mean or deviation makes its
own value NaN, also that of `ucb` whatever its weight. -/
theorem C132_nan (ms ss Y pis eis aeis ucbs : List Flt) (noise j kappa : ℝ) (inc : Bool)
    (hl : ms.length = ss.length) (hY : Y ≠ [])
    (hp : NonFiniteAcquisition.pi ms ss Y j = .ok pis) (he : NonFiniteAcquisition.ei ms ss Y j = .ok eis)
    (ha : NonFiniteAcquisition.aei ms ss Y noise j = .ok aeis)
    (hu : NonFiniteAcquisition.ucb ms ss (some Y) kappa inc = .ok ucbs) (i : ℕ) (m s : Flt)
    (hm : ms[i]? = some m) (hs : ss[i]? = some s) :
    (.nan ∈ Y ∨ m = .nan ∨ s = .nan →
      pis[i]? = some .nan ∧ eis[i]? = some .nan ∧ aeis[i]? = some .nan) ∧
    (m = .nan ∨ s = .nan → ucbs[i]? = some .nan) := by
  obtain ⟨b, hb⟩ : ∃ b, LeastF Y b := by
    by_cases hn : .nan ∈ Y
    · exact ⟨_, .inl ⟨hn, rfl⟩⟩
    · obtain ⟨b, -, h2, h3⟩ := NonFinite.npMin_bottom hY hn
      exact ⟨b, .inr ⟨hn, h2, fun y hy =>
        le_of_not_lt_flt (fun e => hn (e ▸ hy)) (fun e => hn (e ▸ h2)) (h3 y hy)⟩⟩
  rw [piF_eq hl hb, Except.ok.injEq] at hp
  rw [eiF_eq hl hb, Except.ok.injEq] at he
  rw [aeiF_eq hl hb, Except.ok.injEq] at ha
  subst hp he ha
  constructor
  · intro h
    have hb' : b = .nan ∨ m = .nan ∨ s = .nan := by
      refine h.imp (fun h => ?_) id
      exact leastF_unique hb (.inl ⟨h, rfl⟩)
    have hz : NonFiniteAcquisition.valZ b j m s = .nan := by
      rcases hb' with rfl | rfl | rfl
      · cases m <;> cases s <;> rfl
      · cases b <;> cases s <;> rfl
      · cases b <;> cases m <;> rfl
    have he : eiValue b j m s = .nan := by
      rw [eiValue, hz]
      cases b.sub m <;> cases s <;> rfl
    rw [List.getElem?_zipWith, List.getElem?_zipWith, List.getElem?_zipWith, hm, hs]
    simp [hz, he, normCdfF, mul]
  · intro h
    obtain ⟨k, hk⟩ : ∃ k : ℝ, ucbs = List.zipWith (fun m s => m.neg.add (mul (.fin k) s)) ms ss := by
      cases inc <;> simp [NonFiniteAcquisition.ucb, pyAssert, hl, bind, Except.bind, pure, Except.pure] at hu <;>
        exact ⟨_, hu.symm⟩
    rw [hk, List.getElem?_zipWith, hm, hs]
    rcases h with rfl | rfl
    · rfl
    · cases m <;> rfl

/-- C132: augmented expected improvement of a certain prediction, with a positive jitter, is zero if the noise is
positive and NaN if there is no noise: its factor is then one minus zero over zero. -/
theorem C132_aei_certain (ms ss Y vals : List Flt) (noise j : ℝ) (hj : 0 < j) (b : ℝ)
    (hl : ms.length = ss.length) (hb : LeastF Y (.fin b))
    (h : NonFiniteAcquisition.aei ms ss Y noise j = .ok vals) (m : ℝ) (v : Flt)
    (h1 : AtF ms ss vals (.fin m) (.fin 0) v) :
    (0 < noise → v = .fin 0) ∧ (noise = 0 → v = .nan) := by
  rw [aeiF_eq hl hb, Except.ok.injEq] at h
  subst h
  rw [atF_zipWith h1, eiValue_fin (by linarith)]
  constructor
  · intro hn
    have e : (0 : ℝ) + noise ^ 2 = noise ^ 2 := by ring
    have hq : 0 ≤ noise ^ 2 := by positivity
    simp only [Flt.sq, Flt.add, Flt.sqrt, mul_zero, ne_eq, OfNat.ofNat_ne_zero, not_false_eq_true, zero_pow, e,
      if_neg (not_lt.2 hq), Real.sqrt_sq hn.le, NonFinite.div,
      if_neg hn.ne', Flt.sub, Flt.neg, mul, div_self hn.ne', add_neg_cancel, mul_zero]
  · rintro rfl
    simp [Flt.sq, Flt.add, Flt.sqrt, NonFinite.div, Flt.sub, Flt.neg, mul]

/-- C132: means and deviations of different numbers raise an AssertionError in all four functions. -/
theorem C132_lengths (ms ss Y : List Flt) (oY : Option (List Flt)) (noise kappa j : ℝ) (inc : Bool)
    (hl : ms.length ≠ ss.length) :
    NonFiniteAcquisition.pi ms ss Y j = .error .assertion ∧
      NonFiniteAcquisition.ei ms ss Y j = .error .assertion ∧
      NonFiniteAcquisition.ucb ms ss oY kappa inc = .error .assertion ∧
      NonFiniteAcquisition.aei ms ss Y noise j = .error .assertion := by
  simp [NonFiniteAcquisition.pi, NonFiniteAcquisition.ei, NonFiniteAcquisition.ucb, NonFiniteAcquisition.aei,
    pyAssert, hl, bind, Except.bind]

example : ([.fin 1, .nan] : List Flt).length ≠ ([.pinf] : List Flt).length := by simp

/-- C132: without further arguments `ucb` weighs deviations by twice the logarithm of one plus the number of
responses, whatever they are. A deviation of infinity then dominates every mean that is not plus infinity; without
any response its weight is zero and its value NaN. -/
theorem C132_ucb_default (ms ss Y vals : List Flt)
    (h : NonFiniteAcquisition.ucb ms ss (some Y) = .ok vals) (m s v : Flt) (hv : AtF ms ss vals m s v) :
    (∀ x y : ℝ, m = .fin x → s = .fin y → v = .fin (-x + 2 * Real.log (Y.length + 1) * y)) ∧
      (Y ≠ [] → s = .pinf → (m ≠ .pinf → m ≠ .nan → v = .pinf) ∧ (m = .pinf → v = .nan)) ∧
      (Y = [] → s = .pinf → v = .nan) := by
  have hl : ms.length = ss.length := by
    by_contra hl
    rw [(C132_lengths ms ss Y (some Y) 0 2 0 true hl).2.2.1] at h
    cases h
  simp only [NonFiniteAcquisition.ucb, pyAssert, hl, if_true, bind, Except.bind, pure, Except.pure,
    Except.ok.injEq] at h
  subst h
  rw [atF_zipWith hv]
  refine ⟨?_, ?_, ?_⟩
  · rintro x y rfl rfl
    rfl
  · rintro hY rfl
    have hk : 0 < 2 * Real.log ((Y.length : ℝ) + 1) := by
      have : (1 : ℝ) ≤ Y.length := by exact_mod_cast List.length_pos_iff.2 hY
      have := Real.log_pos (show (1 : ℝ) < (Y.length : ℝ) + 1 by linarith)
      linarith
    cases m <;> simp [mul, hk, Flt.neg, Flt.add]
  · rintro rfl rfl
    cases m <;> simp [mul, Flt.neg, Flt.add]

example : ∃ vals, NonFiniteAcquisition.ucb [.fin 3] [.pinf] (some [.nan]) = .ok vals ∧
    AtF [.fin 3] [.pinf] vals (.fin 3) .pinf .pinf := by
  have hk : 0 < Real.log (1 + 1) := Real.log_pos (by norm_num)
  exact ⟨[.pinf], by simp [NonFiniteAcquisition.ucb, pyAssert, bind, Except.bind, pure, Except.pure, mul, hk,
    Flt.neg, Flt.add], 0, rfl, rfl, rfl⟩

/-- C132: when `ucb` of a prediction is NaN: the mean or the deviation is, an infinite deviation has weight zero,
or it is weighed against an infinite mean of the other direction. -/
theorem C132_ucb_nan_iff (ms ss vals : List Flt) (kappa : ℝ)
    (h : NonFiniteAcquisition.ucb ms ss none kappa = .ok vals) (m s v : Flt) (hv : AtF ms ss vals m s v) :
    v = .nan ↔ m = .nan ∨ s = .nan ∨ (kappa = 0 ∧ (s = .pinf ∨ s = .ninf)) ∨
      (0 < kappa ∧ (s = .pinf ∧ m = .pinf ∨ s = .ninf ∧ m = .ninf)) ∨
      (kappa < 0 ∧ (s = .pinf ∧ m = .ninf ∨ s = .ninf ∧ m = .pinf)) := by
  have hl : ms.length = ss.length := by
    by_contra hl
    rw [(C132_lengths ms ss [] none 0 kappa 0 true hl).2.2.1] at h
    cases h
  simp only [NonFiniteAcquisition.ucb, pyAssert, hl, if_true, bind, Except.bind, pure, Except.pure,
    Except.ok.injEq] at h
  subst h
  rw [atF_zipWith hv]
  rcases lt_trichotomy kappa 0 with hk | rfl | hk
  · cases m <;> cases s <;> simp [mul, hk, hk.not_gt, hk.ne, Flt.neg, Flt.add]
  · cases m <;> cases s <;> simp [mul, Flt.neg, Flt.add]
  · cases m <;> cases s <;> simp [mul, hk, hk.not_gt, hk.ne', Flt.neg, Flt.add]

example : ∃ vals, NonFiniteAcquisition.ucb [.fin 3] [.pinf] none 0 = .ok vals ∧
    AtF [.fin 3] [.pinf] vals (.fin 3) .pinf .nan :=
  ⟨[.nan], by simp [NonFiniteAcquisition.ucb, pyAssert, bind, Except.bind, pure, Except.pure, mul, Flt.neg,
    Flt.add], 0, rfl, rfl, rfl⟩

/-- C132: the distribution function and the density at the infinities are their limits there. -/
theorem C132_limits (a : ℝ) :
    (normCdfF .pinf = .fin a ↔ Filter.Tendsto normCdf Filter.atTop (nhds a)) ∧
      (normCdfF .ninf = .fin a ↔ Filter.Tendsto normCdf Filter.atBot (nhds a)) ∧
      (normPdfF .pinf = .fin a ↔ Filter.Tendsto normPdf Filter.atTop (nhds a)) ∧
      (normPdfF .ninf = .fin a ↔ Filter.Tendsto normPdf Filter.atBot (nhds a)) := by
  have key : ∀ (f : ℝ → ℝ) (l : Filter ℝ) [l.NeBot] (c : ℝ), Filter.Tendsto f l (nhds c) →
      (Flt.fin c = .fin a ↔ Filter.Tendsto f l (nhds a)) := by
    intro f l _ c hc
    refine ⟨fun e => ?_, fun h => ?_⟩
    · rw [Flt.fin.injEq] at e
      exact e ▸ hc
    · rw [tendsto_nhds_unique hc h]
  have h1 : Filter.Tendsto normPdf Filter.atTop (nhds 0) := by
    have := tendsto_normPdf_atBot.comp Filter.tendsto_neg_atTop_atBot
    refine this.congr fun x => ?_
    simp only [Function.comp, normPdf_eq, neg_sq]
  exact ⟨key _ _ 1 (ProbabilityTheory.tendsto_cdf_atTop _), key _ _ 0 (ProbabilityTheory.tendsto_cdf_atBot _),
    key _ _ 0 h1, key _ _ 0 tendsto_normPdf_atBot⟩

/-- C132: a finite mean at the best response, a certain one below it, and predictions that are not numbers. -/
example : ∃ pis eis, NonFiniteAcquisition.pi [.fin 1, .fin 0, .pinf, .nan] [.fin 1, .fin 0, .fin 1, .fin 1]
      [.fin 1, .fin 2] 0 = .ok pis ∧
    NonFiniteAcquisition.ei [.fin 1, .fin 0, .pinf, .nan] [.fin 1, .fin 0, .fin 1, .fin 1]
      [.fin 1, .fin 2] 0 = .ok eis ∧ pis[1]? = some (.fin 1) ∧ pis[2]? = some (.fin 0) ∧
      pis[3]? = some .nan ∧ eis[1]? = some (.fin 1) ∧ eis[2]? = some .nan ∧ eis[3]? = some .nan := by
  have hb : LeastF [.fin 1, .fin 2] (.fin 1) := leastF_fin (Y := [1, 2]) ⟨by simp, by
    intro y hy
    fin_cases hy <;> norm_num⟩
  refine ⟨_, _, piF_eq rfl hb, eiF_eq rfl hb, ?_⟩
  have h0 : ¬ (1 : ℝ) < 0 := by norm_num
  simp [h0, eiValue, NonFiniteAcquisition.valZ, Flt.sub, Flt.add, Flt.neg, NonFinite.div, normCdfF, normPdfF, mul]

end Verif.Props
