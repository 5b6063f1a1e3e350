import Verif.Spec.Selection
import Verif.Model.UtilsBo
import Verif.Lemmas.Flt

/-! The selection loops. -/

namespace Verif

open Verif.Spec

theorem selectLoop_spec {α : Type _} (q : α → Prop) [DecidablePred q] (c : List (α × Flt)) :
    let r := c.foldl (fun (st : Flt × Option α) pa =>
      if q pa.1 then (if pa.2 < st.1 then (pa.2, some pa.1) else st) else st) (Flt.pinf, none)
    (r = (Flt.pinf, none) ∧ ∀ b w, (b, w) ∈ c → q b → ¬ w < Flt.pinf) ∨
      (∃ i a v, r = (v, some a) ∧ FirstBest q c i a v) := by
  induction c using List.reverseRecOn with
  | nil => left; simp
  | append_singleton c x ih =>
    obtain ⟨a, v⟩ := x
    simp only [List.foldl_append, List.foldl_cons, List.foldl_nil]
    simp only at ih
    generalize hr : c.foldl (fun (st : Flt × Option α) pa =>
      if q pa.1 then (if pa.2 < st.1 then (pa.2, some pa.1) else st) else st)
        (Flt.pinf, none) = r at ih ⊢
    by_cases hq : q a
    · simp only [hq, if_true]
      rcases ih with ⟨rfl, hall⟩ | ⟨i, b, w, rfl, h1, h2, h3, h4, h5⟩
      · by_cases hv : v < Flt.pinf
        · right
          refine ⟨c.length, a, v, by simp [hv], by simp, hq, hv, ?_, ?_⟩
          · intro j b' w' hj hb'
            rcases Nat.lt_or_ge j c.length with hlt | hge
            · rw [List.getElem?_append_left hlt] at hj
              have := hall _ _ (List.mem_of_getElem? hj) hb'
              cases w' <;> simp_all [Flt.le_of_lt]
            · rw [List.getElem?_append_right hge, List.getElem?_singleton] at hj
              split_ifs at hj
              simp only [Option.some.injEq, Prod.mk.injEq] at hj
              rw [← hj.2]
              exact Or.inr (Flt.le_refl (Flt.ne_nan_of_lt hv))
          · intro j b' w' hji hj hb'
            rw [List.getElem?_append_left hji] at hj
            have := hall _ _ (List.mem_of_getElem? hj) hb'
            cases w' <;> simp_all
        · left
          refine ⟨by simp [hv], ?_⟩
          intro b w hb hqb
          rcases List.mem_append.1 hb with hb | hb
          · exact hall b w hb hqb
          · simp only [List.mem_singleton, Prod.mk.injEq] at hb
            rw [hb.2]; exact hv
      · right
        have hi : i < c.length := by
          by_contra hcon
          rw [List.getElem?_eq_none (by omega)] at h1
          simp at h1
        by_cases hv : v < w
        · refine ⟨c.length, a, v, by simp [hv], by simp, hq, Flt.lt_trans hv h3, ?_, ?_⟩
          · intro j b' w' hj hb'
            rcases Nat.lt_or_ge j c.length with hlt | hge
            · rw [List.getElem?_append_left hlt] at hj
              rcases h4 j b' w' hj hb' with h | h
              · exact Or.inl h
              · exact Or.inr (Flt.le_of_lt (Flt.lt_of_lt_of_le hv h))
            · rw [List.getElem?_append_right hge, List.getElem?_singleton] at hj
              split_ifs at hj
              simp only [Option.some.injEq, Prod.mk.injEq] at hj
              rw [← hj.2]
              exact Or.inr (Flt.le_refl (Flt.ne_nan_of_lt hv))
          · intro j b' w' hji hj hb'
            rw [List.getElem?_append_left hji] at hj
            rcases h4 j b' w' hj hb' with h | h
            · exact Or.inl h
            · exact Or.inr (Flt.lt_of_lt_of_le hv h)
        · refine ⟨i, b, w, by simp [hv], ?_, h2, h3, ?_, ?_⟩
          · rw [List.getElem?_append_left hi]; exact h1
          · intro j b' w' hj hb'
            rcases Nat.lt_or_ge j c.length with hlt | hge
            · rw [List.getElem?_append_left hlt] at hj
              exact h4 j b' w' hj hb'
            · rw [List.getElem?_append_right hge, List.getElem?_singleton] at hj
              split_ifs at hj
              simp only [Option.some.injEq, Prod.mk.injEq] at hj
              rw [← hj.2]
              by_cases hn : v = Flt.nan
              · exact Or.inl hn
              · exact Or.inr (Flt.le_of_not_lt hn (Flt.ne_nan_of_lt h3) hv)
          · intro j b' w' hji hj hb'
            rw [List.getElem?_append_left (by omega)] at hj
            exact h5 j b' w' hji hj hb'
    · simp only [hq, if_false]
      rcases ih with ⟨rfl, hall⟩ | ⟨i, b, w, rfl, h1, h2, h3, h4, h5⟩
      · left
        refine ⟨rfl, ?_⟩
        intro b w hb hqb
        rcases List.mem_append.1 hb with hb | hb
        · exact hall b w hb hqb
        · simp only [List.mem_singleton, Prod.mk.injEq] at hb
          rw [hb.1] at hqb; exact absurd hqb hq
      · right
        have hi : i < c.length := by
          by_contra hcon
          rw [List.getElem?_eq_none (by omega)] at h1
          simp at h1
        refine ⟨i, b, w, rfl, ?_, h2, h3, ?_, ?_⟩
        · rw [List.getElem?_append_left hi]; exact h1
        · intro j b' w' hj hb'
          rcases Nat.lt_or_ge j c.length with hlt | hge
          · rw [List.getElem?_append_left hlt] at hj
            exact h4 j b' w' hj hb'
          · rw [List.getElem?_append_right hge, List.getElem?_singleton] at hj
            split_ifs at hj
            simp only [Option.some.injEq, Prod.mk.injEq] at hj
            rw [← hj.1] at hb'; exact absurd hb' hq
        · intro j b' w' hji hj hb'
          rw [List.getElem?_append_left (by omega)] at hj
          exact h5 j b' w' hji hj hb'

theorem FirstBest.unique {α : Type _} {q : α → Prop} {c : List (α × Flt)} {i j : ℕ} {a b : α}
    {v w : Flt} (h : FirstBest q c i a v) (h' : FirstBest q c j b w) :
    i = j ∧ a = b ∧ v = w := by
  obtain ⟨h1, h2, h3, h4, h5⟩ := h
  obtain ⟨g1, g2, g3, g4, g5⟩ := h'
  have hij : i = j := by
    rcases lt_trichotomy i j with hlt | heq | hgt
    · rcases g5 i a v hlt h1 h2 with h | h
      · exact absurd h (Flt.ne_nan_of_lt h3)
      · rcases h4 j b w g1 g2 with h' | h'
        · exact absurd h' (Flt.ne_nan_of_lt g3)
        · exact absurd h (Flt.not_lt_of_le h')
    · exact heq
    · rcases h5 j b w hgt g1 g2 with h | h
      · exact absurd h (Flt.ne_nan_of_lt g3)
      · rcases g4 i a v h1 h2 with h' | h'
        · exact absurd h' (Flt.ne_nan_of_lt h3)
        · exact absurd h (Flt.not_lt_of_le h')
  subst hij
  rw [h1] at g1
  simp only [Option.some.injEq, Prod.mk.injEq] at g1
  exact ⟨rfl, g1.1, g1.2⟩

theorem mem_npWhere {α : Type _} (p : α → Prop) (l : List α) (i : ℕ) :
    i ∈ npWhere p l ↔ ∃ x, l[i]? = some x ∧ p x := by
  simp only [npWhere, List.mem_map, List.mem_filter, decide_eq_true_eq, Prod.exists,
    exists_eq_right, List.mem_zipIdx_iff_getElem?]

theorem zip_npDelete {α β : Type _} (inds : List ℕ) (l₁ : List α) (l₂ : List β) (k : ℕ)
    (h : l₁.length = l₂.length) :
    List.zip (((l₁.zipIdx k).filter (fun q => q.2 ∉ inds)).map (·.1))
        (((l₂.zipIdx k).filter (fun q => q.2 ∉ inds)).map (·.1))
      = (((List.zip l₁ l₂).zipIdx k).filter (fun q => q.2 ∉ inds)).map (·.1) := by
  induction l₁ generalizing l₂ k with
  | nil => cases l₂ <;> simp_all
  | cons a t ih =>
    cases l₂ with
    | nil => simp at h
    | cons b t₂ =>
      have h' : t.length = t₂.length := by simpa using h
      have := ih t₂ (k + 1) h'
      by_cases hk : k ∈ inds
      · simp only [List.zipIdx_cons, List.zip_cons_cons, List.filter_cons, hk, not_true_eq_false,
          decide_false, Bool.false_eq_true, if_false]
        exact this
      · simp only [List.zipIdx_cons, List.zip_cons_cons, List.filter_cons, hk, not_false_eq_true,
          decide_true, if_true, List.map_cons]
        rw [this]

theorem length_npDelete_eq {α β : Type _} (inds : List ℕ) (l₁ : List α) (l₂ : List β) (k : ℕ)
    (h : l₁.length = l₂.length) :
    (((l₁.zipIdx k).filter (fun q => q.2 ∉ inds)).map (·.1)).length =
      (((l₂.zipIdx k).filter (fun q => q.2 ∉ inds)).map (·.1)).length := by
  induction l₁ generalizing l₂ k with
  | nil => cases l₂ <;> simp_all
  | cons a t ih =>
    cases l₂ with
    | nil => simp at h
    | cons b t₂ =>
      have h' : t.length = t₂.length := by simpa using h
      have := ih t₂ (k + 1) h'
      simp only [List.length_map] at this
      by_cases hk : k ∈ inds
      · simpa [List.filter_cons, hk] using this
      · simpa [List.filter_cons, hk] using this

open Classical in
theorem filter_zipIdx {α : Type _} (c : List α) (g : α → Prop) (inds : List ℕ)
    (hg : ∀ x i, c[i]? = some x → (i ∉ inds ↔ g x)) :
    ((c.zipIdx).filter (fun q => q.2 ∉ inds)).map (·.1) = c.filter (fun x => g x) := by
  have h1 : (c.zipIdx).filter (fun q => q.2 ∉ inds) = (c.zipIdx).filter (fun q => g q.1) := by
    apply List.filter_congr
    rintro ⟨x, i⟩ hx
    rw [List.mem_zipIdx_iff_getElem?] at hx
    have := hg x i hx
    simp only [decide_eq_decide]
    exact this
  rw [h1]
  have : (fun q : α × ℕ => decide (g q.1)) = (fun x => decide (g x)) ∘ Prod.fst := rfl
  rw [this, ← List.filter_map, List.zipIdx_map_fst]

open Classical in
theorem deleteSame_spec {d : ℕ} (pts : List (Point d)) (acqs : List Flt) (e : Point d)
    (h : pts.length = acqs.length) :
    (UtilsBo.deleteSame (pts, acqs) e).1.length = (UtilsBo.deleteSame (pts, acqs) e).2.length ∧
    List.zip (UtilsBo.deleteSame (pts, acqs) e).1 (UtilsBo.deleteSame (pts, acqs) e).2 =
      (List.zip pts acqs).filter (fun pa => FarFrom 1e-8 [e] pa.1) := by
  constructor
  · exact length_npDelete_eq _ _ _ 0 h
  · simp only [UtilsBo.deleteSame, npDelete]
    rw [zip_npDelete _ _ _ 0 h]
    apply filter_zipIdx (g := fun pa : Point d × Flt => FarFrom 1e-8 [e] pa.1)
    rintro ⟨x, v⟩ i hx
    rw [mem_npWhere]
    have hx' : pts[i]? = some x := by
      rw [List.getElem?_zip_eq_some] at hx
      exact hx.1
    simp only [hx', Option.some.injEq, exists_eq_left', not_lt, FarFrom, List.mem_singleton,
      forall_eq, norm2, Constants.TOLERANCE_DUPLICATED_ACQ]

open Classical in
theorem deleteAll_spec {d : ℕ} (ev : List (Point d)) (pts : List (Point d)) (acqs : List Flt)
    (h : pts.length = acqs.length) :
    (ev.foldl UtilsBo.deleteSame (pts, acqs)).1.length =
      (ev.foldl UtilsBo.deleteSame (pts, acqs)).2.length ∧
    List.zip (ev.foldl UtilsBo.deleteSame (pts, acqs)).1
        (ev.foldl UtilsBo.deleteSame (pts, acqs)).2 =
      (List.zip pts acqs).filter (fun pa => FarFrom 1e-8 ev pa.1) := by
  induction ev generalizing pts acqs with
  | nil =>
    refine ⟨h, ?_⟩
    simp only [List.foldl_nil]
    rw [List.filter_eq_self.2]
    intro x _
    simp [FarFrom]
  | cons e t ih =>
    obtain ⟨h1, h2⟩ := deleteSame_spec pts acqs e h
    have := ih (UtilsBo.deleteSame (pts, acqs) e).1 (UtilsBo.deleteSame (pts, acqs) e).2 h1
    simp only [List.foldl_cons]
    refine ⟨this.1, ?_⟩
    have h3 := this.2
    simp only [Prod.mk.eta] at h3
    rw [h3, h2, List.filter_filter]
    apply List.filter_congr
    rintro x _
    rw [Bool.eq_iff_iff, Bool.and_eq_true, decide_eq_true_eq, decide_eq_true_eq,
      decide_eq_true_eq]
    simp [FarFrom, and_comm]

theorem argminLoop_spec (l : List Flt) : ∀ (pre : List Flt) (b : Flt) (ib : ℕ),
    (FirstNanIdx pre ib ∧ b = Flt.nan ∨
      (FirstMinIdx pre ib ∧ pre[ib]? = some b ∧ ∀ w ∈ pre, w ≠ Flt.nan)) →
    (FirstNanIdx (pre ++ l) (argminLoop l pre.length b ib) ∨
      (FirstMinIdx (pre ++ l) (argminLoop l pre.length b ib) ∧ ∀ w ∈ pre ++ l, w ≠ Flt.nan)) := by
  induction l with
  | nil =>
    intro pre b ib h
    simp only [List.append_nil, argminLoop]
    rcases h with h | h
    · exact Or.inl h.1
    · exact Or.inr ⟨h.1, h.2.2⟩
  | cons x t ih =>
    intro pre b ib h
    have hlt : ∀ {k : ℕ} {u : Flt}, pre[k]? = some u → k < pre.length := by
      intro k u hk
      by_contra hcon
      rw [List.getElem?_eq_none (by omega)] at hk
      simp at hk
    rw [argminLoop]
    rcases h with ⟨h, rfl⟩ | ⟨⟨v, h1, h2, h3⟩, hb, hnn⟩
    · simp only [if_true]
      left
      refine ⟨by rw [List.getElem?_append_left (hlt h.1)]; exact h.1, ?_⟩
      intro j w hj hw
      rw [List.getElem?_append_left (by have := hlt h.1; omega)] at hw
      exact h.2 j w hj hw
    · rw [h1, Option.some.injEq] at hb
      subst hb
      have hvn : v ≠ Flt.nan := hnn v (List.mem_of_getElem? h1)
      rw [if_neg hvn]
      have hx : pre ++ x :: t = (pre ++ [x]) ++ t := by simp
      have hl : pre.length + 1 = (pre ++ [x]).length := by simp
      split_ifs with hxb
      · rw [hx, hl]
        apply ih
        rcases hxb with rfl | hxb
        · left
          refine ⟨⟨by simp, ?_⟩, rfl⟩
          intro j w hj hw
          rw [List.getElem?_append_left hj] at hw
          exact hnn w (List.mem_of_getElem? hw)
        · right
          refine ⟨⟨x, by simp, ?_, ?_⟩, by simp, ?_⟩
          · intro j w hw
            rcases Nat.lt_or_ge j pre.length with hj | hj
            · rw [List.getElem?_append_left hj] at hw
              exact Flt.le_of_lt (Flt.lt_of_lt_of_le hxb (h2 j w hw))
            · rw [List.getElem?_append_right hj, List.getElem?_singleton] at hw
              split_ifs at hw
              simp only [Option.some.injEq] at hw
              rw [← hw]
              exact Flt.le_refl (Flt.ne_nan_of_lt hxb)
          · intro j w hj hw
            rw [List.getElem?_append_left hj] at hw
            exact Flt.lt_of_lt_of_le hxb (h2 j w hw)
          · intro w hw
            rcases List.mem_append.1 hw with hw | hw
            · exact hnn w hw
            · simp only [List.mem_singleton] at hw
              rw [hw]; exact Flt.ne_nan_of_lt hxb
      · push Not at hxb
        rw [hx, hl]
        apply ih
        right
        refine ⟨⟨v, ?_, ?_, ?_⟩, ?_, ?_⟩
        · rw [List.getElem?_append_left (hlt h1)]; exact h1
        · intro j w hw
          rcases Nat.lt_or_ge j pre.length with hj | hj
          · rw [List.getElem?_append_left hj] at hw
            exact h2 j w hw
          · rw [List.getElem?_append_right hj, List.getElem?_singleton] at hw
            split_ifs at hw
            simp only [Option.some.injEq] at hw
            rw [← hw]
            exact Flt.le_of_not_lt hxb.1 hvn hxb.2
        · intro j w hj hw
          rw [List.getElem?_append_left (by have := hlt h1; omega)] at hw
          exact h3 j w hj hw
        · rw [List.getElem?_append_left (hlt h1)]; exact h1
        · intro w hw
          rcases List.mem_append.1 hw with hw | hw
          · exact hnn w hw
          · simp only [List.mem_singleton] at hw
            rw [hw]; exact hxb.1

theorem npArgmin_spec {l : List Flt} {i : ℕ} (h : npArgmin l = .ok i) :
    FirstNanIdx l i ∨ (FirstMinIdx l i ∧ ∀ w ∈ l, w ≠ Flt.nan) := by
  cases l with
  | nil => simp [npArgmin] at h
  | cons a t =>
    simp only [npArgmin, Except.ok.injEq] at h
    subst h
    have := argminLoop_spec t [a] a 0 ?_
    · simpa using this
    · by_cases ha : a = Flt.nan
      · left
        refine ⟨⟨by simp [ha], ?_⟩, ha⟩
        intro j w hj; omega
      · right
        refine ⟨⟨a, by simp, ?_, ?_⟩, by simp, by simpa using ha⟩
        · intro j w hw
          rw [List.getElem?_singleton] at hw
          split_ifs at hw
          simp only [Option.some.injEq] at hw
          rw [← hw]; exact Flt.le_refl ha
        · intro j w hj; omega

theorem npArgmin_exists {l : List Flt} (h : l ≠ []) : ∃ i, npArgmin l = .ok i := by
  cases l with
  | nil => simp at h
  | cons a t => exact ⟨_, rfl⟩

end Verif
