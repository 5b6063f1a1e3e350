import Verif.Spec.ForestShape
import Verif.Lemmas.Trees

/-! Lemmas for C135 and C136: where trees change their predictions, and what their leaves hold. -/

namespace Verif.Lemmas

open Verif.Trees Verif.Spec

variable {d : ℕ}

theorem takeRows_rows {α : Type _} {X : List α} : ∀ {idx : List ℕ},
    (∀ i ∈ idx, i < X.length) → ∃ X', takeRows X idx = .ok X' ∧ X'.length = idx.length ∧
      ∀ (j i : ℕ), idx[j]? = some i → X'[j]? = X[i]?
  | [], _ => ⟨[], rfl, rfl, by simp⟩
  | a :: t, h => by
    obtain ⟨X', h1, h2, h3⟩ := takeRows_rows (X := X) (idx := t) (fun i hi => h i (by simp [hi]))
    have ha : a < X.length := h a (by simp)
    refine ⟨X[a] :: X', ?_, by simp [h2], ?_⟩
    · unfold takeRows at h1 ⊢
      rw [List.mapM_cons, h1]
      simp [pyIndex, ha, bind, Except.bind, pure, Except.pure]
    · intro j i hj
      cases j with
      | zero =>
        simp at hj
        subst hj
        simp [ha]
      | succ j => simpa using h3 j i (by simpa using hj)

/-- A sample holds exactly the drawn rows. -/
theorem subsample_rows {choice : ℕ → ℕ → List ℕ} {replace : Bool} (hc : SampleOk choice replace)
    {X : List (Point d)} {Y : List ℝ} (hl : X.length = Y.length) (hX : X ≠ []) {ratio : ℝ}
    (h0 : 0 < ratio) (h1 : replace = false → ratio ≤ 1) :
    ∃ X' Y', subsample choice X Y ratio replace = .ok (X', Y') ∧
      X'.length = ⌊X.length * ratio⌋₊ ∧ X'.length = Y'.length ∧
      ∀ p, p ∈ X'.zip Y' ↔ ∃ i ∈ choice X.length ⌊X.length * ratio⌋₊, X[i]? = some p.1 ∧
        Y[i]? = some p.2 := by
  have hpos : 0 < X.length := List.length_pos_iff.2 hX
  set k := ⌊(X.length : ℝ) * ratio⌋₊ with hk
  have hkle : replace = false → k ≤ X.length := by
    intro hr
    have : (X.length : ℝ) * ratio ≤ X.length := by
      have := h1 hr
      have hp : (0 : ℝ) < X.length := by exact_mod_cast hpos
      nlinarith
    calc k ≤ ⌊(X.length : ℝ)⌋₊ := Nat.floor_le_floor this
      _ = X.length := Nat.floor_natCast _
  obtain ⟨X', a1, a2, a3⟩ := takeRows_rows (X := X) (idx := choice X.length k) (hc.lt _ _ hpos hkle)
  obtain ⟨Y', b1, b2, b3⟩ := takeRows_rows (X := Y) (idx := choice X.length k)
    (fun i hi => hl ▸ hc.lt _ _ hpos hkle i hi)
  have hlen := hc.length X.length k hpos hkle
  refine ⟨X', Y', ?_, by omega, by omega, fun p => ⟨fun hp => ?_, ?_⟩⟩
  · have hcond : ¬ ((X.length = 0 ∧ k > 0) ∨ (replace = false ∧ k > X.length)) := by
      rintro (⟨h, _⟩ | ⟨h, h'⟩)
      · omega
      · have := hkle h
        omega
    cases replace
    · have := h1 rfl
      simp only [subsample, pyAssert, hl, if_true, h0, this, and_self, Bool.false_eq_true, if_false,
        bind, Except.bind, pure, Except.pure]
      rw [← hl, ← hk, if_neg (by simpa using hcond), a1, b1]
    · simp only [subsample, pyAssert, hl, if_true, h0, gt_iff_lt,
        bind, Except.bind, pure, Except.pure]
      rw [← hl, ← hk, if_neg (by simpa using hcond), a1, b1]
  · obtain ⟨j, hj⟩ := List.mem_iff_getElem?.1 hp
    rw [List.getElem?_zip_eq_some] at hj
    have hjl : j < (choice X.length k).length := by
      have := (List.getElem?_eq_some_iff.1 hj.1).1
      omega
    have e := List.getElem?_eq_getElem hjl
    exact ⟨_, List.getElem_mem hjl, by rw [← a3 j _ e]; exact hj.1, by rw [← b3 j _ e]; exact hj.2⟩
  · rintro ⟨i, hi, h2, h3⟩
    obtain ⟨j, hj⟩ := List.mem_iff_getElem?.1 hi
    rw [List.mem_iff_getElem?]
    exact ⟨j, by
      rw [List.getElem?_zip_eq_some]
      exact ⟨(a3 j i hj).trans h2, (b3 j i hj).trans h3⟩⟩

theorem mapM_range_grown {β : Type _} (g : ℕ → Py β) (P : ℕ → β → Prop) (n : ℕ)
    (h : ∀ k, ∃ b, g k = .ok b ∧ P k b) :
    ∃ f : ℕ → β, (List.range n).mapM g = .ok ((List.range n).map f) ∧ ∀ k, P k (f k) := by
  choose f hf hP using h
  exact ⟨f, mapM_ok _ _ _ (fun k _ => hf k), hP⟩

/-- The trees of an ensemble are grown from the rows that were drawn for them. -/
theorem generic_grown {rnd : ForestRnd d} {replace : Bool} (hr : ForestRndOk rnd replace)
    {X : List (Point d)} {Y : List ℝ} (hl : X.length = Y.length) (hX : X ≠ []) {ratio : ℝ}
    (h0 : 0 < ratio) (h1 : replace = false → ratio ≤ 1) (hk : 1 ≤ X.length * ratio) {nf : ℤ}
    (hn1 : 1 ≤ nf) (hnd : nf ≤ d) (num : ℕ) (dm sm : ℤ) (rl : Bool) :
    ∃ T : ℕ → Tree d, getGenericTrees rnd X Y num dm sm ratio replace nf rl =
        .ok ((List.range num).map T) ∧
      ∀ k, ∃ data, Grown nf dm sm rl true data 1 (T k) ∧ ∀ p, p ∈ data ↔
        ∃ i ∈ rnd.sample k X.length ⌊X.length * ratio⌋₊, X[i]? = some p.1 ∧ Y[i]? = some p.2 := by
  have hk' : 1 ≤ ⌊X.length * ratio⌋₊ := Nat.le_floor (by simpa using hk)
  obtain ⟨T, hT, hP⟩ := mapM_range_grown (fun k => do
      let (X_, Y_) ← subsample (rnd.sample k) X Y ratio replace
      growTree (rnd.tree k) X_ Y_ dm sm nf rl) (fun k t => ∃ data, Grown nf dm sm rl true data 1 t ∧
        ∀ p, p ∈ data ↔ ∃ i ∈ rnd.sample k X.length ⌊X.length * ratio⌋₊, X[i]? = some p.1 ∧
          Y[i]? = some p.2) num (by
    intro k
    obtain ⟨X', Y', hs, hlen, hXY, hrows⟩ := subsample_rows (hr.sample k) hl hX h0 h1
    have hX' : X' ≠ [] := by
      rintro rfl
      rw [List.length_nil] at hlen
      omega
    obtain ⟨t, ht, hg⟩ := growTree_grown (hr.tree k) hn1 hnd dm sm rl hX' hXY
    refine ⟨t, ?_, _, hg, hrows⟩
    simp only [hs, bind, Except.bind]
    exact ht)
  refine ⟨T, ?_, hP⟩
  cases replace
  · have := h1 rfl
    simp only [getGenericTrees, pyAssert, hl, if_true, h0, this, and_self, Bool.false_eq_true,
      if_false, Int.toNat_natCast]
    exact hT
  · simp only [getGenericTrees, pyAssert, hl, if_true, h0, gt_iff_lt, Int.toNat_natCast]
    exact hT

/-- The thresholds of a node that separates its rows lie between two of their values, and half way
between two of them without random locations. -/
theorem chosen_between {nf : ℤ} {rl : Bool} {data : List (Row d)} {f : Fin d} {v : ℝ}
    (h : Chosen nf rl data f v) (hmid : ∀ r : NodeRnd d, NodeRndOk r → ∀ X : List (Point d),
      X ≠ [] → (f, v) ∈ tried r X nf false → IsMidpoint X f v)
    (hb : below data f v ≠ []) (hn : notBelow data f v ≠ []) :
    (∃ p ∈ data, p.1 f < v) ∧ (∃ q ∈ data, v ≤ q.1 f) ∧
      (rl = false → ∃ p ∈ data, ∃ q ∈ data, p.1 f < q.1 f ∧ v = (p.1 f + q.1 f) / 2) := by
  obtain ⟨p, hp⟩ := List.exists_mem_of_ne_nil _ hb
  obtain ⟨q, hq⟩ := List.exists_mem_of_ne_nil _ hn
  have hp := mem_below.1 hp
  have hq := mem_notBelow.1 hq
  refine ⟨⟨p, hp⟩, ⟨q, hq⟩, fun hrl => ?_⟩
  subst hrl
  obtain ⟨r, hr, i, hi, -⟩ := h
  rcases hmid r hr _ (by
      intro hc
      rw [List.map_eq_nil_iff] at hc
      rw [hc] at hp
      simp at hp) (List.mem_iff_getElem?.2 ⟨i, hi⟩) with ⟨x, hx, y, hy, hxy, -, rfl⟩ | ⟨hconst, -⟩
  · obtain ⟨p', hp', rfl⟩ := List.mem_map.1 hx
    obtain ⟨q', hq', rfl⟩ := List.mem_map.1 hy
    exact ⟨p', hp', q', hq', hxy, rfl⟩
  · have := hconst p.1 (List.mem_map_of_mem hp.1) q.1 (List.mem_map_of_mem hq.1)
    linarith [hp.2, hq.2]

/-- Two queries that no separating threshold separates reach leaves with the same rows. -/
theorem grown_reaches_same {nf dm sm : ℤ} {rl root : Bool} {data : List (Row d)} {c : ℤ} {t : Tree d}
    (h : Grown nf dm sm rl root data c t)
    (hmid : ∀ f v, ∀ r : NodeRnd d, NodeRndOk r → ∀ X : List (Point d),
      X ≠ [] → (f, v) ∈ tried r X nf false → IsMidpoint X f v)
    {x x' : Point d}
    (hx : ∀ f v, (∃ p ∈ data, p.1 f < v) → (∃ q ∈ data, v ≤ q.1 f) →
      (rl = false → ∃ p ∈ data, ∃ q ∈ data, p.1 f < q.1 f ∧ v = (p.1 f + q.1 f) / 2) →
      (x f < v ↔ x' f < v)) {L : List (Row d)} (hL : Reaches x t L) : Reaches x' t L := by
  induction h generalizing L with
  | small _ _ _ => cases hL; exact .leaf _
  | @degenerate _ data _ f v _ _ _ _ _ =>
    have hL' : L = below data f v ++ notBelow data f v := by
      cases hL with
      | left _ h => cases h; rfl
      | right _ h => cases h; rfl
    subst hL'
    rcases lt_or_ge (x' f) v with h | h
    · exact .left h (.leaf _)
    · exact .right h (.leaf _)
  | @bottom _ data _ f v _ _ hch hb hn _ _ =>
    obtain ⟨a1, a2, a3⟩ := chosen_between hch (hmid f v) hb hn
    have hiff := hx f v a1 a2 a3
    cases hL with
    | left hv h => exact .left (hiff.1 hv) (by cases h; exact .leaf _)
    | right hv h =>
      exact .right (not_lt.1 fun h' => absurd (hiff.2 h') (not_lt.2 hv)) (by cases h; exact .leaf _)
  | @inner _ data _ f v l r _ _ hch hb hn _ _ _ ihl ihr =>
    obtain ⟨a1, a2, a3⟩ := chosen_between hch (hmid f v) hb hn
    have hiff := hx f v a1 a2 a3
    cases hL with
    | left hv h =>
      refine .left (hiff.1 hv) (ihl (fun f' v' b1 b2 b3 => hx f' v' ?_ ?_ ?_) h)
      · exact b1.imp fun p hp => ⟨(mem_below.1 hp.1).1, hp.2⟩
      · exact b2.imp fun p hp => ⟨(mem_below.1 hp.1).1, hp.2⟩
      · exact fun hrl => (b3 hrl).imp fun p hp => ⟨(mem_below.1 hp.1).1,
          hp.2.imp fun q hq => ⟨(mem_below.1 hq.1).1, hq.2⟩⟩
    | right hv h =>
      refine .right (not_lt.1 fun h' => absurd (hiff.2 h') (not_lt.2 hv))
        (ihr (fun f' v' b1 b2 b3 => hx f' v' ?_ ?_ ?_) h)
      · exact b1.imp fun p hp => ⟨(mem_notBelow.1 hp.1).1, hp.2⟩
      · exact b2.imp fun p hp => ⟨(mem_notBelow.1 hp.1).1, hp.2⟩
      · exact fun hrl => (b3 hrl).imp fun p hp => ⟨(mem_notBelow.1 hp.1).1,
          hp.2.imp fun q hq => ⟨(mem_notBelow.1 hq.1).1, hq.2⟩⟩

/-- If rows that agree in a feature are copies of each other and the depth suffices, the leaf reached
from a training input holds copies of its row only. -/
theorem grown_pure {nf dm sm : ℤ} (hsm : sm ≤ 1) {root : Bool} {data : List (Row d)} {c : ℤ}
    {t : Tree d} (h : Grown nf dm sm false root data c t)
    (hmid : ∀ f v, ∀ r : NodeRnd d, NodeRndOk r → ∀ X : List (Point d),
      X ≠ [] → (f, v) ∈ tried r X nf false → IsMidpoint X f v)
    (hd : ∀ f, ∀ p ∈ data, ∀ q ∈ data, p.1 f = q.1 f → p = q) {S : Finset (Row d)}
    (hS : ∀ p ∈ data, p ∈ S) (hc : (S.card : ℤ) ≤ dm - c + 2) {p : Row d} (hp : p ∈ data)
    {L : List (Row d)} (hL : Reaches p.1 t L) : ∀ q ∈ L, q = p := by
  classical
  induction h generalizing L S with
  | @small data _ _ hlen _ =>
    cases hL
    intro q hq
    obtain ⟨z, rfl⟩ : ∃ z, data = [z] := by
      match data, hp, hlen with
      | [z], _, _ => exact ⟨z, rfl⟩
      | _ :: _ :: _, _, hlen =>
        simp only [List.length_cons, Nat.cast_add, Nat.cast_one] at hlen
        omega
    rw [List.mem_singleton] at hp hq
    rw [hp, hq]
  | @degenerate _ data _ f v _ _ hch hdeg _ =>
    have hL' : L = below data f v ++ notBelow data f v := by
      cases hL with
      | left _ h => cases h; rfl
      | right _ h => cases h; rfl
    subst hL'
    intro q hq
    have hq : q ∈ data := (List.Perm.mem_iff (below_append_perm data f v)).1 hq
    obtain ⟨r, hr, i, hi, -⟩ := hch
    rcases hmid f v r hr _ (by
        intro hn
        rw [List.map_eq_nil_iff] at hn
        simp [hn] at hp) (List.mem_iff_getElem?.2 ⟨i, hi⟩) with ⟨x, hx, y, hy, hxy, -, rfl⟩ | ⟨hconst, -⟩
    · obtain ⟨a, ha, rfl⟩ := List.mem_map.1 hx
      obtain ⟨b, hb, rfl⟩ := List.mem_map.1 hy
      rcases hdeg with h | h
      · have : a ∈ below data f ((a.1 f + b.1 f) / 2) := mem_below.2 ⟨ha, by linarith⟩
        rw [h] at this
        simp at this
      · have : b ∈ notBelow data f ((a.1 f + b.1 f) / 2) := mem_notBelow.2 ⟨hb, by linarith⟩
        rw [h] at this
        simp at this
    · exact hd f q hq p hp (hconst _ (List.mem_map_of_mem hq) _ (List.mem_map_of_mem hp))
  | @bottom _ data c f v _ _ hch hb hn hdc _ =>
    intro q hq
    by_contra hne
    obtain ⟨a, ha⟩ := List.exists_mem_of_ne_nil _ hb
    obtain ⟨b, hb⟩ := List.exists_mem_of_ne_nil _ hn
    have ha := mem_below.1 ha
    have hb := mem_notBelow.1 hb
    have key : ∀ z ∈ data, z ≠ p → z ≠ q → False := by
      intro z hz h1 h2
      have hq' : q ∈ data := by
        cases hL with
        | left _ h => cases h; exact (mem_below.1 hq).1
        | right _ h => cases h; exact (mem_notBelow.1 hq).1
      have h3 : ({p, q, z} : Finset (Row d)).card = 3 := by
        rw [Finset.card_eq_three]
        exact ⟨p, q, z, fun h => hne h.symm, fun h => h1 h.symm, fun h => h2 h.symm, rfl⟩
      have h4 : ({p, q, z} : Finset (Row d)) ⊆ S := by
        intro w hw
        simp only [Finset.mem_insert, Finset.mem_singleton] at hw
        rcases hw with rfl | rfl | rfl
        · exact hS _ hp
        · exact hS _ hq'
        · exact hS _ hz
      have := Finset.card_le_card h4
      omega
    cases hL with
    | left hv h =>
      cases h
      have hq := mem_below.1 hq
      refine key b hb.1 ?_ ?_
      · rintro rfl; linarith [hb.2]
      · rintro rfl; linarith [hb.2, hq.2]
    | right hv h =>
      cases h
      have hq := mem_notBelow.1 hq
      refine key a ha.1 ?_ ?_
      · rintro rfl; linarith [ha.2]
      · rintro rfl; linarith [ha.2, hq.2]
  | @inner _ data c f v l r _ _ hch hb hn _ _ _ ihl ihr =>
    obtain ⟨a, ha⟩ := List.exists_mem_of_ne_nil _ hb
    obtain ⟨b, hb⟩ := List.exists_mem_of_ne_nil _ hn
    have ha := mem_below.1 ha
    have hb := mem_notBelow.1 hb
    cases hL with
    | left hv h =>
      refine ihl (S := S.erase b) (fun f' z hz w hw => hd f' z (mem_below.1 hz).1 w (mem_below.1 hw).1)
        ?_ ?_ (mem_below.2 ⟨hp, hv⟩) h
      · intro z hz
        have hz := mem_below.1 hz
        refine Finset.mem_erase.2 ⟨?_, hS z hz.1⟩
        rintro rfl
        linarith [hb.2, hz.2]
      · have := Finset.card_erase_add_one (hS b hb.1)
        omega
    | right hv h =>
      refine ihr (S := S.erase a)
        (fun f' z hz w hw => hd f' z (mem_notBelow.1 hz).1 w (mem_notBelow.1 hw).1)
        ?_ ?_ (mem_notBelow.2 ⟨hp, hv⟩) h
      · intro z hz
        have hz := mem_notBelow.1 hz
        refine Finset.mem_erase.2 ⟨?_, hS z hz.1⟩
        rintro rfl
        linarith [ha.2, hz.2]
      · have := Finset.card_erase_add_one (hS a ha.1)
        omega

end Verif.Lemmas
