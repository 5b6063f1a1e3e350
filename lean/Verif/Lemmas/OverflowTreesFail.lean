import Verif.Lemmas.OverflowTrees

/-! Helper lemmas about trees that cannot be grown because of overflow. -/

namespace Verif.OverflowTrees

open Verif.Spec Verif.Trees Verif.Rounded Verif.RoundedKernels Verif.Lemmas
open Verif.RoundedTrees (Orders)

variable {fl : ℝ → ℝ} {o : Orders} {d : ℕ}

/-- An infinite or undefined cost. -/
def Bad (a : Flt) : Prop := a = .pinf ∨ a = .nan

theorem Bad.not_lt {a b : Flt} (h : Bad a) : ¬ a < b := by
  rcases h with rfl | rfl <;> cases b <;> exact id

/-- Sets of floats that addition does not leave. -/
def Absorbing (fl : ℝ → ℝ) (S : Flt → Prop) : Prop :=
  ∀ a b, S a → S (Overflow.add fl a b) ∧ S (Overflow.add fl b a)

theorem absorbing_nan : Absorbing fl (· = .nan) := by
  rintro a b rfl
  cases b <;> exact ⟨rfl, rfl⟩

theorem absorbing_bad : Absorbing fl Bad := by
  rintro a b (rfl | rfl) <;> cases b <;>
    simp [Bad, Overflow.add, Overflow.roundF, Flt.add]

theorem absorbing_ninf : Absorbing fl (fun a => a = .ninf ∨ a = .nan) := by
  rintro a b (rfl | rfl) <;> cases b <;>
    simp [Overflow.add, Overflow.roundF, Flt.add]

theorem sum_absorbs {S : Flt → Prop} (hS : Absorbing fl S) {l : List Flt} (s : SumOrder) {i : ℕ}
    (hi : i ∈ s.entries) {a : Flt} (ha : l[i]? = some a) (h : S a) : S (Overflow.sumF fl l s) := by
  induction s with
  | entry j =>
    rw [SumOrder.entries, List.mem_singleton] at hi
    subst hi
    rw [Overflow.sumF, ha]
    exact h
  | add s t ihs iht =>
    rw [SumOrder.entries, List.mem_append] at hi
    rw [Overflow.sumF]
    rcases hi with hi | hi
    · exact (hS _ _ (ihs hi)).1
    · exact (hS _ _ (iht hi)).2

theorem mean_absorbs {S : Flt → Prop} (hS : Absorbing fl S) (hn : ∀ x, ¬ S (.fin x))
    {order : ℕ → SumOrder} {l : List Flt} (ho : (order l.length).Covers l.length) {a : Flt} (ha : a ∈ l)
    (h : S a) : S (npMean fl order l) := by
  obtain ⟨i, hi, rfl⟩ := List.getElem_of_mem ha
  have hne : l ≠ [] := List.ne_nil_of_mem ha
  have hs := sum_absorbs hS (order l.length) (i := i) (ho.mem_iff.2 (List.mem_range.2 hi))
    (List.getElem?_eq_getElem hi) h
  rw [npMean, if_neg hne, Overflow.meanF]
  cases hq : Overflow.sumF fl l (order l.length) with
  | fin x =>
    rw [hq] at hs
    exact absurd hs (hn x)
  | pinf => rw [hq] at hs; exact hs
  | ninf => rw [hq] at hs; exact hs
  | nan => rw [hq] at hs; exact hs

theorem mean_bad {order : ℕ → SumOrder} {l : List Flt} (ho : (order l.length).Covers l.length) {a : Flt}
    (ha : a ∈ l) (h : Bad a) : Bad (npMean fl order l) :=
  mean_absorbs absorbing_bad (fun x => by simp [Bad]) ho ha h

/-- One deviation that cannot be squared spoils the cost. -/
theorem mse1_bad_of (ho : SumsAll o) {Y : List Flt} {y : Flt} (hy : y ∈ Y)
    (h : Bad (square fl (Overflow.sub fl y (npMean fl o.column Y)))) : Bad (mse1 fl o Y) := by
  have hp : Y.length > 0 := List.length_pos_of_mem hy
  rw [mse1, if_pos hp]
  exact mean_bad (by simpa using (ho _ hp).2) (List.mem_map_of_mem hy) h

theorem mse1_bad_nonfinite (ho : SumsAll o) {Y : List Flt} {y : Flt} (hy : y ∈ Y)
    (hf : ¬ Overflow.IsFinite y) : Bad (mse1 fl o Y) := by
  have hp : Y.length > 0 := List.length_pos_of_mem hy
  have hc := (ho _ hp).1
  refine mse1_bad_of ho hy ?_
  cases y with
  | fin x => exact absurd trivial hf
  | pinf =>
    rcases mean_bad (fl := fl) hc hy (.inl rfl) with h | h <;> rw [h] <;> exact .inr rfl
  | ninf =>
    rcases mean_absorbs (fl := fl) absorbing_ninf (by simp) hc hy (.inl rfl) with h | h <;> rw [h] <;>
      exact .inr rfl
  | nan =>
    have := mean_absorbs (fl := fl) absorbing_nan (by simp) hc hy rfl
    rw [this]
    exact .inr rfl

theorem mse1_bad_far (h : Nearest fl) (ho : SumsAll o) {Y : List Flt} {a b : ℝ} (ha : Flt.fin a ∈ Y)
    (hb : Flt.fin b ∈ Y) (hab : (2 : ℝ) ^ (513 : ℤ) ≤ |a - b|) : Bad (mse1 fl o Y) := by
  cases hm : npMean fl o.column Y with
  | nan =>
    refine mse1_bad_of ho ha ?_
    rw [hm]
    exact .inr rfl
  | pinf =>
    refine mse1_bad_of ho ha ?_
    rw [hm]
    exact .inl rfl
  | ninf =>
    refine mse1_bad_of ho ha ?_
    rw [hm]
    exact .inl rfl
  | fin m =>
    have h2 : (2 : ℝ) ^ (513 : ℤ) = 2 * (2 : ℝ) ^ (512 : ℤ) := by
      rw [show (513 : ℤ) = 1 + 512 by norm_num, zpow_add₀ (by norm_num)]
      norm_num
    have h3 : (2 : ℝ) ^ (512 : ℤ) ≤ |a - m| ∨ (2 : ℝ) ^ (512 : ℤ) ≤ |b - m| := by
      by_contra hc
      push Not at hc
      have := abs_sub (a - m) (b - m)
      rw [sub_sub_sub_cancel_right] at this
      obtain ⟨hc1, hc2⟩ := hc
      rw [h2] at hab
      generalize (2 : ℝ) ^ (512 : ℤ) = c at hab hc1 hc2
      linarith only [this, hc1, hc2, hab]
    rcases h3 with h3 | h3
    · refine mse1_bad_of ho ha ?_
      rw [hm, square, sub_fin, sq_overflows h h3]
      exact .inl rfl
    · refine mse1_bad_of ho hb ?_
      rw [hm, square, sub_fin, sq_overflows h h3]
      exact .inl rfl

/-! ### Splits -/

theorem splitLeftRight_mem {X : List (Point d)} {Y : List Flt} (hl : X.length = Y.length) (f : Fin d)
    {v : Flt} (hv : v ≠ .nan) : ∃ l r, splitLeftRight X Y f v = .ok (l, r) ∧
      ∀ q ∈ X.zip Y, (Flt.fin (q.1 f) < v → q ∈ l) ∧ (¬ Flt.fin (q.1 f) < v → q ∈ r) := by
  refine ⟨(X.zip Y).filter (fun q => decide (Flt.fin (q.1 f) < v)),
    (X.zip Y).filter (fun q => decide (v ≤ Flt.fin (q.1 f))), ?_, ?_⟩
  · simp only [splitLeftRight, pyAssert, hl, if_true, bind, Except.bind, pure, Except.pure]
    rw [maskSelect_zip _ _ _ hl, maskSelect_zip _ _ _ hl]
  · intro q hq
    refine ⟨fun h => List.mem_filter.2 ⟨hq, by simpa using h⟩, fun h => List.mem_filter.2 ⟨hq, ?_⟩⟩
    rw [decide_eq_true_iff]
    cases v with
    | fin v => exact not_lt.1 (show ¬ q.1 f < v from h)
    | pinf => exact absurd trivial h
    | ninf => trivial
    | nan => exact absurd rfl hv

/-- No split of these rows has a finite cost. -/
def Hopeless (fl : ℝ → ℝ) (o : Orders) (X : List (Point d)) (Y : List Flt) : Prop :=
  ∀ f v, v ≠ .nan → ∀ l r, splitLeftRight X Y f v = .ok (l, r) → Bad (mse fl o (l, r))

theorem mse_bad {l r : List (RowF d)} (h : Bad (mse1 fl o (l.map (·.2))) ∨ Bad (mse1 fl o (r.map (·.2)))) :
    Bad (mse fl o (l, r)) := by
  rw [mse]
  rcases h with h | h
  · exact (absorbing_bad _ _ h).1
  · exact (absorbing_bad _ _ h).2

theorem hopeless_nonfinite (ho : SumsAll o) {X : List (Point d)} {Y : List Flt} (hl : X.length = Y.length)
    {y : Flt} (hy : y ∈ Y) (hf : ¬ Overflow.IsFinite y) : Hopeless fl o X Y := by
  intro f v hv l r he
  obtain ⟨i, hi, rfl⟩ := List.getElem_of_mem hy
  have hz : (X[i]'(hl ▸ hi), Y[i]) ∈ X.zip Y := by
    have : i < (X.zip Y).length := by rw [List.length_zip, hl, min_self]; exact hi
    rw [← List.getElem_zip (h := this)]
    exact List.getElem_mem this
  obtain ⟨l', r', he', hm⟩ := splitLeftRight_mem hl f hv
  obtain ⟨rfl, rfl⟩ := Prod.mk.inj (Except.ok.inj (he.symm.trans he'))
  obtain ⟨h1, h2⟩ := hm _ hz
  refine mse_bad ?_
  by_cases hc : Flt.fin ((X[i]'(hl ▸ hi)) f) < v
  · exact .inl (mse1_bad_nonfinite ho (List.mem_map_of_mem (h1 hc)) hf)
  · exact .inr (mse1_bad_nonfinite ho (List.mem_map_of_mem (h2 hc)) hf)

theorem hopeless_far (h : Nearest fl) (ho : SumsAll o) {X : List (Point d)} {Y : List ℝ}
    (hl : X.length = Y.length)
    (hfar : ∀ (f : Fin d) (v : ℝ), ∃ p ∈ X.zip Y, ∃ q ∈ X.zip Y, (2 : ℝ) ^ (513 : ℤ) ≤ |p.2 - q.2| ∧
      (p.1 f < v ↔ q.1 f < v)) : Hopeless fl o X (Y.map .fin) := by
  intro f v hv l r he
  obtain ⟨l', r', he', hm⟩ := splitLeftRight_mem (X := X) (Y := Y.map .fin) (by simpa using hl) f hv
  obtain ⟨rfl, rfl⟩ := Prod.mk.inj (Except.ok.inj (he.symm.trans he'))
  have key : ∃ p ∈ X.zip Y, ∃ q ∈ X.zip Y, (2 : ℝ) ^ (513 : ℤ) ≤ |p.2 - q.2| ∧
      (Flt.fin (p.1 f) < v ↔ Flt.fin (q.1 f) < v) := by
    cases v with
    | fin v => exact hfar f v
    | pinf =>
      obtain ⟨p, hp, q, hq, hpq, -⟩ := hfar f 0
      exact ⟨p, hp, q, hq, hpq, Iff.rfl⟩
    | ninf =>
      obtain ⟨p, hp, q, hq, hpq, -⟩ := hfar f 0
      exact ⟨p, hp, q, hq, hpq, Iff.rfl⟩
    | nan => exact absurd rfl hv
  obtain ⟨p, hp, q, hq, hpq, hs⟩ := key
  have hz : ∀ p ∈ X.zip Y, liftRow p ∈ X.zip (Y.map Flt.fin) := by
    intro p hp
    rw [zip_lift]
    exact List.mem_map_of_mem hp
  obtain ⟨p1, p2⟩ := hm _ (hz p hp)
  obtain ⟨q1, q2⟩ := hm _ (hz q hq)
  have mem : ∀ (p : Row d) (l : List (RowF d)), liftRow p ∈ l → Flt.fin p.2 ∈ l.map (·.2) :=
    fun p l hp => List.mem_map.2 ⟨_, hp, rfl⟩
  refine mse_bad ?_
  by_cases hc : Flt.fin (p.1 f) < v
  · exact .inl (mse1_bad_far h ho (mem p _ (p1 hc)) (mem q _ (q1 (hs.1 hc))) hpq)
  · exact .inr (mse1_bad_far h ho (mem p _ (p2 hc)) (mem q _ (q2 fun c => hc (hs.2 c))) hpq)

theorem add_fin_ne_nan {x : ℝ} {a : Flt} (ha : a ≠ .nan) : Overflow.add fl (.fin x) a ≠ .nan := by
  cases a with
  | fin y =>
    rw [add_fin]
    exact round_cases _
  | pinf => exact fun h => by cases h
  | ninf => exact fun h => by cases h
  | nan => exact absurd rfl ha

theorem sum_two {s : SumOrder} (hs : s.Covers 2) (a b : ℝ) :
    Overflow.sumF fl [.fin a, .fin b] s = Overflow.round fl (a + b) := by
  have hlen := hs.length_eq
  cases s with
  | entry i => simp [SumOrder.entries] at hlen
  | add s t =>
    have e1 := RoundedTrees.entries_pos s
    have e2 := RoundedTrees.entries_pos t
    simp only [SumOrder.entries, List.length_append, List.length_range] at hlen
    cases s with
    | add s s' =>
      have := RoundedTrees.entries_pos s
      have := RoundedTrees.entries_pos s'
      simp only [SumOrder.entries, List.length_append] at hlen
      omega
    | entry i =>
      cases t with
      | add t t' =>
        have := RoundedTrees.entries_pos t
        have := RoundedTrees.entries_pos t'
        simp only [SumOrder.entries, List.length_append, List.length_singleton] at hlen
        omega
      | entry j =>
        have hm : ∀ k ∈ [i, j], k < 2 := fun k hk => List.mem_range.1 (hs.mem_iff.1 hk)
        have hi := hm i (by simp)
        have hj := hm j (by simp)
        have hne : i ≠ j := by
          have : [i, j].Nodup := hs.nodup_iff.2 List.nodup_range
          simpa using this
        have : (i = 0 ∧ j = 1) ∨ (i = 1 ∧ j = 0) := by omega
        rcases this with ⟨rfl, rfl⟩ | ⟨rfl, rfl⟩
        · rfl
        · rw [add_comm a b]
          rfl

theorem sum_two_ne_nan {s : SumOrder} (hs : s.Covers 2) (a b : ℝ) :
    Overflow.sumF fl [.fin a, .fin b] s ≠ .nan := by
  rw [sum_two hs]
  exact round_cases _

theorem valToSplit_ok (ho : SumsAll o) {X : List (Point d)} (hX : X ≠ []) (f : Fin d) {i : ℕ}
    (hi : i < (if (candidatesLoc X f).length > 1 then (candidatesLoc X f).length - 1 else 1)) :
    ∃ v, valToSplit fl o X f i = .ok v ∧ v ≠ .nan := by
  unfold valToSplit
  by_cases hc : (candidatesLoc X f).length > 1
  · simp only [hc, if_true] at hi ⊢
    refine ⟨_, rfl, ?_⟩
    have h2 : ((candidatesLoc X f).drop i).take 2 =
        [(candidatesLoc X f)[i]'(by omega), (candidatesLoc X f)[i + 1]'(by omega)] := by
      rw [List.drop_eq_getElem_cons (by omega), List.drop_eq_getElem_cons (by omega)]
      rfl
    rw [h2, npMean, if_neg (by simp), Overflow.meanF]
    have := sum_two_ne_nan (fl := fl) (ho 2 (by norm_num)).2 ((candidatesLoc X f)[i]'(by omega))
      ((candidatesLoc X f)[i + 1]'(by omega))
    simp only [List.map_cons, List.map_nil, List.length_cons, List.length_nil, Nat.zero_add,
      Nat.reduceAdd]
    cases hs : Overflow.sumF fl [Flt.fin ((candidatesLoc X f)[i]'(by omega)),
        Flt.fin ((candidatesLoc X f)[i + 1]'(by omega))] (o.flat 2) with
    | fin x => exact round_cases _
    | pinf => exact fun h => by cases h
    | ninf => exact fun h => by cases h
    | nan => exact absurd hs this
  · simp only [hc, if_false]
    obtain ⟨x, hx⟩ : ∃ x, X[0]? = some x := by
      cases X with
      | nil => exact absurd rfl hX
      | cons x t => exact ⟨x, rfl⟩
    exact ⟨.fin (x f), by simp [pyIndex, hx, bind, Except.bind, pure, Except.pure], by simp⟩

theorem randomValToSplit_ok {X : List (Point d)} (hX : X ≠ []) (f : Fin d) (u : ℝ) :
    (∃ v, randomValToSplit fl u X f = .ok v ∧ v ≠ .nan) ∨
      randomValToSplit fl u X f = .error .overflow ∧
        ∃ x ∈ X, ∃ y ∈ X, ¬ Overflow.IsFinite (Overflow.round fl (y f - x f)) := by
  unfold randomValToSplit
  by_cases hc : (candidatesLoc X f).length > 1
  · have hm1 := RoundedTrees.levels_npMin hX f
    have hm2 := RoundedTrees.levels_npMax hX f
    obtain ⟨a1, -⟩ := sorted_head_min (levels_sorted X f) (levels_ne_nil hX f)
    obtain ⟨b1, -⟩ := sorted_last_max (levels_sorted X f) (levels_ne_nil hX f)
    obtain ⟨x, hx, hxe⟩ := mem_levels.1 a1
    obtain ⟨y, hy, hye⟩ := mem_levels.1 b1
    simp only [hc, if_true, hm1, hm2, bind, Except.bind]
    cases hw : Overflow.sub fl (.fin ((levels X f).getD ((levels X f).length - 1) 0))
        (.fin ((levels X f).getD 0 0)) with
    | fin w => exact .inl ⟨_, rfl, add_fin_ne_nan (round_cases _)⟩
    | pinf =>
      refine .inr ⟨rfl, x, hx, y, hy, ?_⟩
      rw [hxe, hye, ← sub_fin, hw]
      exact id
    | ninf =>
      refine .inr ⟨rfl, x, hx, y, hy, ?_⟩
      rw [hxe, hye, ← sub_fin, hw]
      exact id
    | nan =>
      refine .inr ⟨rfl, x, hx, y, hy, ?_⟩
      rw [hxe, hye, ← sub_fin, hw]
      exact id
  · simp only [hc, if_false]
    obtain ⟨x, hx⟩ : ∃ x, X[0]? = some x := by
      cases X with
      | nil => exact absurd rfl hX
      | cons x t => exact ⟨x, rfl⟩
    exact .inl ⟨.fin (x f), by simp [pyIndex, hx, bind, Except.bind, pure, Except.pure], by simp⟩

theorem foldlM_const {α β : Type} (F : β → α → Py β) (b : β) :
    ∀ l : List α, (∀ a ∈ l, F b a = .ok b) → l.foldlM F b = .ok b
  | [], _ => rfl
  | a :: t, h => by
    rw [List.foldlM_cons, h a (by simp)]
    exact foldlM_const F b t fun x hx => h x (by simp [hx])

theorem splitFeature_hopeless (ho : SumsAll o) {r : NodeRnd d} (hr : NodeRndOk r) {X : List (Point d)}
    {Y : List Flt} (hl : X.length = Y.length) (hX : X ≠ []) (hh : Hopeless fl o X Y) (rl : Bool)
    (hw : rl = true → ∀ x ∈ X, ∀ y ∈ X, ∀ f, Overflow.IsFinite (Overflow.round fl (y f - x f)))
    (f : Fin d) (k : ℕ) : ∃ b, splitFeature fl o r X Y rl f k = .ok b ∧ (Bad b.score) := by
  have side : ∀ v, v ≠ .nan → ∃ l r, splitLeftRight X Y f v = .ok (l, r) ∧ Bad (mse fl o (l, r)) := by
    intro v hv
    obtain ⟨l, r, he, -⟩ := splitLeftRight_mem hl f hv
    exact ⟨l, r, he, hh f v hv l r he⟩
  cases rl with
  | false =>
    refine ⟨BestF.init, ?_, .inl rfl⟩
    simp only [splitFeature, Bool.false_eq_true, if_false, splitDeterministic]
    refine foldlM_const _ _ _ fun i hi => ?_
    obtain ⟨v, hv, hn⟩ := valToSplit_ok (fl := fl) ho hX f (hr.locs_lt k _ _ (min_le_right _ _) i hi)
    obtain ⟨l, r, he, hb⟩ := side v hn
    simp only [tryLoc, hv, he, bind, Except.bind, if_neg hb.not_lt, pure, Except.pure]
  | true =>
    rcases randomValToSplit_ok (fl := fl) hX f (r.unif k) with ⟨v, hv, hn⟩ | ⟨-, x, hx, y, hy, hbad⟩
    · obtain ⟨l, r', he, hb⟩ := side v hn
      refine ⟨⟨mse fl o (l, r'), some (f, v, l, r')⟩, ?_, hb⟩
      simp only [splitFeature, if_true, splitRandom, hv, he, bind, Except.bind, pure, Except.pure]
    · exact absurd (hw rfl x hx y hy f) hbad

theorem growTree_hopeless (ho : SumsAll o) {rnd : TreeRnd d} (hr : TreeRndOk rnd) {X : List (Point d)}
    {Y : List Flt} (hl : X.length = Y.length) (hX : X ≠ []) (hh : Hopeless fl o X Y) (rl : Bool)
    (hw : rl = true → ∀ x ∈ X, ∀ y ∈ X, ∀ f, Overflow.IsFinite (Overflow.round fl (y f - x f)))
    (dm sm : ℤ) {nf : ℤ} (h0 : 0 ≤ nf) (hd : nf ≤ d) :
    growTree fl o rnd X Y dm sm nf rl = .error .type := by
  have hs : splitNode fl o (rnd []) X Y nf rl = .ok BestF.init := by
    have hp : X.length > 0 := List.length_pos_iff.2 hX
    have hn : ¬ (nf < 0 ∨ nf > d) := by omega
    simp only [splitNode, pyAssert, hl, if_true, hl ▸ hp, hn, if_false, bind, Except.bind]
    refine foldlM_const _ _ _ fun q _ => ?_
    obtain ⟨b, hb, hbad⟩ := splitFeature_hopeless ho (hr []) hl hX hh rl hw q.1 q.2
    simp only [tryFeature, hb, bind, Except.bind, if_neg hbad.not_lt, pure, Except.pure]
  unfold growTree
  rw [hs]
  simp only [bind, Except.bind]
  rw [split.eq_def]
  rfl

end Verif.OverflowTrees
