import Verif.Spec.ForestNearest
import Verif.Lemmas.ForestShape

/-! Which rows are in the leaf that a query reaches (lemmas for C144). -/

namespace Verif.Lemmas

open Verif.Trees Verif.Spec

variable {d : ℕ} {nf dm sm : ℤ} {rl root : Bool} {data : List (Row d)} {c : ℤ} {t : Tree d}

theorem reaches_degenerate {x : Point d} {f : Fin d} {v : ℝ} {M L : List (Row d)}
    (h : Reaches x (.node f v (.leaf M) (.leaf M)) L) : L = M := by
  cases h with
  | left _ h => cases h; rfl
  | right _ h => cases h; rfl

/-- The leaf of a query holds, with one row, all rows in the box that the query spans with it. -/
theorem grown_box (h : Grown nf dm sm rl root data c t) {x : Point d} {L : List (Row d)}
    (hL : Reaches x t L) {p q : Row d} (hp : p ∈ L) (hq : q ∈ data) (hb : Spanned x p.1 q.1) : q ∈ L := by
  induction h generalizing L with
  | small _ _ _ => cases hL; exact hq
  | @degenerate _ data _ f v _ _ _ _ _ =>
    rw [reaches_degenerate hL]
    exact (List.Perm.mem_iff (below_append_perm data f v)).2 hq
  | @bottom _ data _ f v _ _ _ _ _ _ _ =>
    cases hL with
    | left hv h =>
      cases h
      exact mem_below.2 ⟨hq, (hb f).2.trans_lt (max_lt hv (mem_below.1 hp).2)⟩
    | right hv h =>
      cases h
      exact mem_notBelow.2 ⟨hq, (le_min hv (mem_notBelow.1 hp).2).trans (hb f).1⟩
  | @inner _ data _ f v l r _ _ _ _ _ _ hl hr ihl ihr =>
    cases hL with
    | left hv h =>
      have hp' := (grown_mem_heldRows hl p).1 (List.mem_flatten.2 ⟨_, reaches_mem_leaves h, hp⟩)
      exact ihl h hp (mem_below.2 ⟨hq, (hb f).2.trans_lt (max_lt hv (mem_below.1 hp').2)⟩)
    | right hv h =>
      have hp' := (grown_mem_heldRows hr p).1 (List.mem_flatten.2 ⟨_, reaches_mem_leaves h, hp⟩)
      exact ihr h hp (mem_notBelow.2 ⟨hq, (le_min hv (mem_notBelow.1 hp').2).trans (hb f).1⟩)

/-- The rows of a leaf reach it themselves. -/
theorem grown_reaches_own (h : Grown nf dm sm rl root data c t) {x : Point d} {L : List (Row d)}
    (hL : Reaches x t L) {p : Row d} (hp : p ∈ L) : Reaches p.1 t L := by
  induction h generalizing L with
  | small _ _ _ => cases hL; exact .leaf _
  | @degenerate _ data _ f v _ _ _ _ _ =>
    rw [reaches_degenerate hL]
    rcases lt_or_ge (p.1 f) v with h | h
    · exact .left h (.leaf _)
    · exact .right h (.leaf _)
  | @bottom _ data _ f v _ _ _ _ _ _ _ =>
    cases hL with
    | left hv h => cases h; exact .left (mem_below.1 hp).2 (.leaf _)
    | right hv h => cases h; exact .right (mem_notBelow.1 hp).2 (.leaf _)
  | @inner _ data _ f v l r _ _ _ _ _ _ hl hr ihl ihr =>
    cases hL with
    | left hv h =>
      have hp' := (grown_mem_heldRows hl p).1 (List.mem_flatten.2 ⟨_, reaches_mem_leaves h, hp⟩)
      exact .left (mem_below.1 hp').2 (ihl h hp)
    | right hv h =>
      have hp' := (grown_mem_heldRows hr p).1 (List.mem_flatten.2 ⟨_, reaches_mem_leaves h, hp⟩)
      exact .right (mem_notBelow.1 hp').2 (ihr h hp)

/-- A midpoint of neighbouring values does not come between a query and the nearest value. -/
theorem nearest_side {X : List (Point 1)} {x p : Point 1} {v : ℝ} (hp : p ∈ X)
    (hn : ∀ z ∈ X, AsNear x p z) {a b : Point 1} (ha : a ∈ X) (hb : b ∈ X) (hab : a 0 < b 0)
    (hnb : ∀ z ∈ X, z 0 ≤ a 0 ∨ b 0 ≤ z 0) (hv : v = (a 0 + b 0) / 2) : x 0 < v ↔ p 0 < v := by
  subst hv
  have h1 := hn a ha
  have h2 := hn b hb
  constructor
  · intro hx
    rcases hnb p hp with h | h
    · linarith
    · exfalso
      have e : |x 0 - p 0| = p 0 - x 0 := by rw [abs_sub_comm, abs_of_nonneg (by linarith)]
      rw [AsNear, e] at h1
      rcases abs_cases (x 0 - a 0) with ⟨e', -⟩ | ⟨e', -⟩ <;> rw [e'] at h1 <;>
        rcases h1 with h1 | ⟨h1, h1'⟩ <;> linarith
  · intro hx
    rcases hnb p hp with h | h
    · by_contra hc
      have e : |x 0 - p 0| = x 0 - p 0 := abs_of_nonneg (by linarith)
      rw [AsNear, e] at h2
      rcases abs_cases (x 0 - b 0) with ⟨e', -⟩ | ⟨e', -⟩ <;> rw [e'] at h2 <;>
        rcases h2 with h2 | ⟨h2, h2'⟩ <;> linarith
    · linarith

/-- In one dimension the leaf of a query holds the row nearest to it. -/
theorem grown_nearest {root : Bool} {data : List (Row 1)} {t : Tree 1}
    (h : Grown nf dm sm false root data c t)
    (hmid : ∀ f v, ∀ r : NodeRnd 1, NodeRndOk r → ∀ X : List (Point 1),
      X ≠ [] → (f, v) ∈ tried r X nf false → IsMidpoint X f v)
    {x : Point 1} {p : Row 1} (hp : p ∈ data) (hn : ∀ q ∈ data, AsNear x p.1 q.1) {L : List (Row 1)}
    (hL : Reaches x t L) : p ∈ L := by
  have side : ∀ (data : List (Row 1)) (f : Fin 1) (v : ℝ), p ∈ data → (∀ q ∈ data, AsNear x p.1 q.1) →
      Chosen nf false data f v → below data f v ≠ [] → notBelow data f v ≠ [] →
      (x f < v ↔ p.1 f < v) := by
    intro data f v hp hn hch hb hnb
    obtain rfl : f = 0 := Subsingleton.elim _ _
    obtain ⟨r, hr, i, hi, -⟩ := hch
    rcases hmid 0 v r hr _ (by simpa using List.ne_nil_of_mem hp) (List.mem_iff_getElem?.2 ⟨i, hi⟩) with
      ⟨a, ha, b, hb, hab, hnb, hv⟩ | ⟨hconst, -⟩
    · refine nearest_side (List.mem_map_of_mem hp) ?_ ha hb hab hnb hv
      intro z hz
      obtain ⟨q, hq, rfl⟩ := List.mem_map.1 hz
      exact hn q hq
    · obtain ⟨q, hq⟩ := List.exists_mem_of_ne_nil _ hb
      obtain ⟨q', hq'⟩ := List.exists_mem_of_ne_nil _ hnb
      have hq := mem_below.1 hq
      have hq' := mem_notBelow.1 hq'
      have := hconst q.1 (List.mem_map_of_mem hq.1) q'.1 (List.mem_map_of_mem hq'.1)
      linarith [hq.2, hq'.2]
  induction h generalizing L with
  | small _ _ _ => cases hL; exact hp
  | @degenerate _ data _ f v _ _ _ _ _ =>
    rw [reaches_degenerate hL]
    exact (List.Perm.mem_iff (below_append_perm data f v)).2 hp
  | @bottom _ data _ f v _ _ hch hb hnb _ _ =>
    have hs := side data f v hp hn hch hb hnb
    cases hL with
    | left hv h => cases h; exact mem_below.2 ⟨hp, hs.1 hv⟩
    | right hv h =>
      cases h
      exact mem_notBelow.2 ⟨hp, not_lt.1 fun h' => absurd (hs.2 h') (not_lt.2 hv)⟩
  | @inner _ data _ f v l r _ _ hch hb hnb _ _ _ ihl ihr =>
    have hs := side data f v hp hn hch hb hnb
    cases hL with
    | left hv h =>
      exact ihl (mem_below.2 ⟨hp, hs.1 hv⟩) (fun q hq => hn q (mem_below.1 hq).1) h
    | right hv h =>
      exact ihr (mem_notBelow.2 ⟨hp, not_lt.1 fun h' => absurd (hs.2 h') (not_lt.2 hv)⟩)
        (fun q hq => hn q (mem_notBelow.1 hq).1) h

/-- Among finitely many inputs one is nearest. -/
theorem exists_asNear (x : Point 1) : ∀ {S : List (Row 1)}, S ≠ [] →
    ∃ p ∈ S, ∀ q ∈ S, AsNear x p.1 q.1
  | [a], _ => ⟨a, by simp, by simp [AsNear]⟩
  | a :: b :: t, _ => by
    obtain ⟨p, hp, hn⟩ := exists_asNear x (S := b :: t) (by simp)
    by_cases h : AsNear x p.1 a.1
    · refine ⟨p, by simp [hp], fun q hq => ?_⟩
      rcases List.mem_cons.1 hq with rfl | hq
      · exact h
      · exact hn q hq
    · refine ⟨a, by simp, fun q hq => ?_⟩
      rcases List.mem_cons.1 hq with rfl | hq
      · exact .inr ⟨rfl, le_rfl⟩
      · have h2 := hn q hq
        simp only [AsNear, not_or, not_and, not_lt, not_le] at h h2 ⊢
        obtain ⟨h, h'⟩ := h
        rcases h.lt_or_eq with h | h
        · rcases h2 with h2 | ⟨h2, -⟩
          · exact .inl (h.trans h2)
          · exact .inl (h.trans_eq h2)
        · rcases h2 with h2 | ⟨h2, h3⟩
          · exact .inl (h.trans_lt h2)
          · exact .inr ⟨h.trans h2, h3.trans (h' h.symm).le⟩

end Verif.Lemmas
