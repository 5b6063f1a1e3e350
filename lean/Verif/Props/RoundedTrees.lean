import Verif.Props.Trees
import Verif.Lemmas.RoundedTreesId
import Verif.Lemmas.RoundedForest

/-!
# Trees in double precision (C137, C138)

The random generator is arbitrary up to the promises of numpy, and so is the order in which numpy
adds the entries of an array. `Nearest fl` stands for any way to break ties between doubles.
-/

namespace Verif.Props

open Verif.Spec Verif.RoundedTrees Verif.Lemmas
open Verif.Trees (Row Tree NodeRnd TreeRnd ForestRnd Best mem_below mem_notBelow heldRows_leaf
  levels_sorted levels_ne_nil mem_levels sorted_head_min sorted_last_max)
open Verif.Rounded (SumOrder)

variable {d : ℕ} {fl : ℝ → ℝ} {o : Orders}

/-! ### Concrete orders and roundings, used by the examples -/

/-- Adds the entries from left to right. -/
def inTurn : ℕ → SumOrder
  | 0 => .entry 0
  | 1 => .entry 0
  | n + 2 => .add (inTurn (n + 1)) (.entry (n + 1))

theorem inTurn_covers : ∀ n : ℕ, 1 ≤ n → (inTurn n).Covers n
  | 0, h => absurd h (by omega)
  | 1, _ => by simp [inTurn, SumOrder.Covers, SumOrder.entries]
  | n + 2, _ => by
    have ih := inTurn_covers (n + 1) (by omega)
    unfold SumOrder.Covers at ih ⊢
    rw [inTurn, SumOrder.entries, List.range_succ]
    exact ih.append_right _

theorem inTurn_sumsAll : SumsAll ⟨inTurn, inTurn⟩ := fun n hn => ⟨inTurn_covers n hn, inTurn_covers n hn⟩

/-! ### C137: growth -/

/-- C137: whatever the rounding, growing a tree from a non-empty sample raises nothing and stops at
depth `max(depth_max, 1)`; no leaf is empty, and the leaves hold the training pairs and nothing
else. -/
theorem C137_grows (ho : SumsAll o) {rnd : TreeRnd d} (hr : TreeRndOk rnd) {X : List (Point d)}
    {Y : List ℝ} (hX : X ≠ []) (hl : X.length = Y.length) {nf : ℤ} (h1 : 1 ≤ nf) (hd : nf ≤ d)
    (dm sm : ℤ) (rl : Bool) :
    ∃ t, growTree fl o rnd X Y dm sm nf rl = .ok t ∧ 1 ≤ depth t ∧ (depth t : ℤ) ≤ max dm 1 ∧
      (∀ L ∈ leaves t, L ≠ []) ∧ ∀ p, (∃ L ∈ leaves t, p ∈ L) ↔ p ∈ X.zip Y := by
  obtain ⟨t, ht, hg⟩ := growTree_grownF (fl := fl) ho hr h1 hd dm sm rl hX hl
  refine ⟨t, ht, ?_, ?_, grownBy_leaves_ne_nil hg, fun p => ?_⟩
  · obtain ⟨f, v, l, r, rfl⟩ := grownBy_not_leaf hg
    simp [depth]
  · have := grownBy_depth_le hg
    simpa using this
  · rw [← grownBy_mem_heldRows hg p, heldRows, List.mem_flatten]

example : ∃ t, growTree (d := 1) roundUp ⟨inTurn, inTurn⟩ (fun _ => firstRnd 1)
    [fun _ => 1, fun _ => 1 + 1 / 2 ^ 52] [3, 4] 5 1 1 false = .ok t ∧ (depth t : ℤ) ≤ 5 := by
  obtain ⟨t, h, _, h2, _⟩ := C137_grows (fl := roundUp) inTurn_sumsAll (fun _ => firstRnd_ok 1)
    (X := [fun _ => 1, fun _ => 1 + 1 / 2 ^ 52]) (Y := [3, 4]) (by simp) rfl (nf := 1) le_rfl le_rfl 5 1
    false
  exact ⟨t, h, by simpa using h2⟩

/-- C137: a threshold tried without random locations lies between two neighbouring values of its
feature, strictly if there is a double strictly between them; a feature with a single value is
tried at that value. -/
theorem C137_midpoints (h : Nearest fl) {r : NodeRnd d} (hr : NodeRndOk r) {X : List (Point d)}
    (hX : X ≠ []) (hXd : ∀ x ∈ X, ∀ f, x f ∈ Double) {nf : ℤ} {f : Fin d} {v : ℝ}
    (hv : (f, v) ∈ triedF fl r X nf false) :
    f ∈ r.features nf ∧
    ((∃ x ∈ X, ∃ y ∈ X, x f < y f ∧ (∀ z ∈ X, z f ≤ x f ∨ y f ≤ z f) ∧ x f ≤ v ∧ v ≤ y f ∧
        ((∃ c ∈ Double, x f < c ∧ c < y f) → x f < v ∧ v < y f)) ∨
      ((∀ x ∈ X, ∀ y ∈ X, x f = y f) ∧ ∃ x ∈ X, v = x f)) := by
  obtain ⟨hf, x, hx, y, hy, hxy, hgap, rfl⟩ | ⟨hf, hc⟩ := triedF_midpoint hr hX hv
  · refine ⟨hf, Or.inl ⟨x, hx, y, hy, hxy, hgap, ?_, ?_, ?_⟩⟩
    · exact (midpoint_mem h (hXd x hx f) (hXd y hy f) hxy.le).1
    · exact (midpoint_mem h (hXd x hx f) (hXd y hy f) hxy.le).2
    · rintro ⟨c, hc, h1, h2⟩
      exact midpoint_between h (hXd x hx f) (hXd y hy f) hc h1 h2
  · exact ⟨hf, Or.inr hc⟩

/-- The two values 0 and 1 are tried at 1/2. -/
example {r : NodeRnd 1} (hr : NodeRndOk r) {v : ℝ}
    (hv : ((0 : Fin 1), v) ∈ triedF roundUp r [fun _ => 0, fun _ => 1] 1 false) : 0 < v ∧ v < 1 := by
  have hD : ∀ x ∈ [(fun _ => 0 : Point 1), fun _ => 1], ∀ f, x f ∈ Double := by
    intro x hx f
    rcases List.mem_pair.1 hx with rfl | rfl
    · exact double_zero
    · simpa using double_nat (m := 1) (by norm_num)
  have hhalf : (1 / 2 : ℝ) ∈ Double := by
    have := double_half (e := -1) (by norm_num)
    norm_num at this ⊢
    exact this
  obtain ⟨_, ⟨x, hx, y, hy, hxy, _, _, _, hs⟩ | ⟨hc, _⟩⟩ :=
    C137_midpoints roundUp_nearest hr (by simp) hD hv
  · rcases List.mem_pair.1 hx with rfl | rfl <;> rcases List.mem_pair.1 hy with rfl | rfl
    · norm_num at hxy
    · exact hs ⟨1 / 2, hhalf, by norm_num, by norm_num⟩
    · norm_num at hxy
    · norm_num at hxy
  · have := hc (fun _ => 0) (by simp) (fun _ => 1) (by simp)
    norm_num at this

/-- C137: with random locations one threshold per drawn feature is tried, and it lies between the
smallest and the largest value of the feature. -/
theorem C137_random (h : Nearest fl) {r : NodeRnd d} (hr : NodeRndOk r) (hu : ∀ k, r.unif k ∈ Double)
    {X : List (Point d)} (hX : X ≠ []) (hXd : ∀ x ∈ X, ∀ f, x f ∈ Double) {nf : ℤ} :
    (triedF fl r X nf true).map (·.1) = r.features nf ∧
    ∀ f v, (f, v) ∈ triedF fl r X nf true → ∃ x ∈ X, ∃ y ∈ X, (∀ z ∈ X, x f ≤ z f ∧ z f ≤ y f) ∧
      x f ≤ v ∧ v ≤ y f := by
  constructor
  · have : triedF fl r X nf true =
        (r.features nf).zipIdx.map (fun q => (q.1, triedRandomF fl r X q.1 q.2)) := by
      simp only [triedF, if_true, List.map_cons, List.map_nil]
      induction (r.features nf).zipIdx with
      | nil => rfl
      | cons q l ih => rw [List.flatMap_cons, ih]; rfl
    rw [this, List.map_map]
    simp [Function.comp_def]
  · intro f v hv
    obtain ⟨⟨f', k⟩, -, hm⟩ := List.mem_flatMap.1 hv
    simp only [if_true, List.mem_map, List.mem_singleton, exists_eq_left, Prod.mk.injEq] at hm
    obtain ⟨rfl, rfl⟩ := hm
    obtain ⟨h1, h2⟩ := sorted_head_min (levels_sorted X f') (levels_ne_nil hX f')
    obtain ⟨h3, h4⟩ := sorted_last_max (levels_sorted X f') (levels_ne_nil hX f')
    obtain ⟨x, hx, hxe⟩ := mem_levels.1 h1
    obtain ⟨y, hy, hye⟩ := mem_levels.1 h3
    have hall : ∀ z ∈ X, x f' ≤ z f' ∧ z f' ≤ y f' := by
      intro z hz
      rw [hxe, hye]
      exact ⟨h2 _ (mem_levels.2 ⟨z, hz, rfl⟩), h4 _ (mem_levels.2 ⟨z, hz, rfl⟩)⟩
    refine ⟨x, hx, y, hy, hall, ?_⟩
    unfold triedRandomF
    simp only []
    split_ifs with hlen
    · rw [← hxe, ← hye, mul_comm (fl _), add_comm]
      exact scale_box h (hXd x hx f') (hXd y hy f') (hall x hx).2 (hu k) (hr.unif_nonneg k) (hr.unif_lt k)
    · rw [← hxe]
      exact ⟨le_rfl, (hall x hx).2⟩

private theorem grownBy_respects {nf dm sm : ℤ} (h : Nearest fl) (hsm : 1 ≤ sm) {root : Bool}
    {data : List (Row d)} {c : ℤ} {t : Tree d}
    (hg : GrownBy (ChosenF fl o nf false) dm sm root data c t)
    (hroot : root = true → 2 ≤ data.length) (hD : ∀ p ∈ data, ∀ f, p.1 f ∈ Double)
    (hgap : ∀ p ∈ data, ∀ q ∈ data, ∀ f, p.1 f < q.1 f → ∃ c ∈ Double, p.1 f < c ∧ c < q.1 f)
    (hd : ∀ f, (data.map (fun p => p.1 f)).Nodup) : Respects t := by
  have proper : ∀ (data : List (Row d)) (f : Fin d) (v : ℝ), data ≠ [] → 2 ≤ data.length →
      (∀ p ∈ data, ∀ f, p.1 f ∈ Double) →
      (∀ p ∈ data, ∀ q ∈ data, ∀ f, p.1 f < q.1 f → ∃ c ∈ Double, p.1 f < c ∧ c < q.1 f) →
      (∀ f, (data.map (fun p => p.1 f)).Nodup) → ChosenF fl o nf false data f v →
      below data f v ≠ [] ∧ notBelow data f v ≠ [] := by
    intro data f v hne h2 hD hgap hd hch
    obtain ⟨r, hr, hi, _⟩ := hch
    have hX : data.map (·.1) ≠ [] := by simpa using hne
    have hD' : ∀ x ∈ data.map (·.1), ∀ f, x f ∈ Double := by
      intro x hx
      obtain ⟨p, hp, rfl⟩ := List.mem_map.1 hx
      exact hD p hp
    obtain ⟨_, ⟨x, hx, y, hy, hxy, _, _, _, hm⟩ | ⟨hconst, _⟩⟩ := C137_midpoints h hr hX hD' hi
    · obtain ⟨p, hp, rfl⟩ := List.mem_map.1 hx
      obtain ⟨q, hq, rfl⟩ := List.mem_map.1 hy
      obtain ⟨m1, m2⟩ := hm (hgap p hp q hq f hxy)
      exact ⟨List.ne_nil_of_mem (mem_below.2 ⟨hp, m1⟩),
        List.ne_nil_of_mem (mem_notBelow.2 ⟨hq, m2.le⟩)⟩
    · exfalso
      obtain ⟨p, q, rest, rfl⟩ : ∃ p q rest, data = p :: q :: rest := by
        match data, h2 with
        | p :: q :: rest, _ => exact ⟨p, q, rest, rfl⟩
      have h1 := hconst p.1 (by simp) q.1 (by simp)
      have h3 := hd f
      simp [h1] at h3
  have sub : ∀ (P : Row d → Bool) (data : List (Row d)), ∀ p ∈ data.filter P, p ∈ data :=
    fun P data p hp => (List.mem_filter.1 hp).1
  induction hg with
  | small _ _ _ => trivial
  | @degenerate root data _ f v hne hlen hch hdeg _ =>
    have h2 : 2 ≤ data.length := by
      cases root
      · have := hlen rfl
        omega
      · exact hroot rfl
    obtain ⟨h3, h4⟩ := proper data f v hne h2 hD hgap hd hch
    rcases hdeg with h | h
    · exact absurd h h3
    · exact absurd h h4
  | bottom _ _ _ _ _ _ _ =>
    refine ⟨?_, ?_, trivial, trivial⟩
    · intro p hp
      rw [heldRows_leaf] at hp
      exact (mem_below.1 hp).2
    · intro p hp
      rw [heldRows_leaf] at hp
      exact (mem_notBelow.1 hp).2
  | inner _ _ _ _ _ _ hgl hgr ihl ihr =>
    refine ⟨?_, ?_, ihl (by simp) ?_ ?_ ?_, ihr (by simp) ?_ ?_ ?_⟩
    · intro p hp
      exact (mem_below.1 ((grownBy_mem_heldRows hgl p).1 hp)).2
    · intro p hp
      exact (mem_notBelow.1 ((grownBy_mem_heldRows hgr p).1 hp)).2
    · exact fun p hp => hD p (sub _ _ p hp)
    · exact fun p hp q hq => hgap p (sub _ _ p hp) q (sub _ _ q hq)
    · intro f
      exact (hd f).sublist (List.filter_sublist.map _)
    · exact fun p hp => hD p (sub _ _ p hp)
    · exact fun p hp q hq => hgap p (sub _ _ p hp) q (sub _ _ q hq)
    · intro f
      exact (hd f).sublist (List.filter_sublist.map _)

example {r : NodeRnd 1} (hr : NodeRndOk r) (hu : ∀ k, r.unif k ∈ Double) {v : ℝ}
    (hv : ((0 : Fin 1), v) ∈ triedF roundUp r [fun _ => 0, fun _ => 1] 1 true) : 0 ≤ v ∧ v ≤ 1 := by
  have hD : ∀ x ∈ [(fun _ => 0 : Point 1), fun _ => 1], ∀ f, x f ∈ Double := by
    intro x hx f
    rcases List.mem_pair.1 hx with rfl | rfl
    · exact double_zero
    · simpa using double_nat (m := 1) (by norm_num)
  obtain ⟨x, hx, y, hy, _, h1, h2⟩ := (C137_random roundUp_nearest hr hu (by simp) hD).2 0 v hv
  constructor
  · rcases List.mem_pair.1 hx with rfl | rfl
    · exact h1
    · exact zero_le_one.trans h1
  · rcases List.mem_pair.1 hy with rfl | rfl
    · exact h2.trans zero_le_one
    · exact h2

/-- C137: if between any two values of a feature there is another double (and there are no ties),
trees split at midpoints with `size_min_leaf >= 1` hold every row in exactly one leaf, on its side of
all thresholds. -/
theorem C137_no_ties (h : Nearest fl) (ho : SumsAll o) {rnd : TreeRnd d} (hr : TreeRndOk rnd)
    {X : List (Point d)} {Y : List ℝ} (hX : 2 ≤ X.length) (hl : X.length = Y.length)
    (hXd : ∀ x ∈ X, ∀ f, x f ∈ Double) {nf : ℤ} (h1 : 1 ≤ nf) (hd : nf ≤ d) {dm sm : ℤ}
    (hsm : 1 ≤ sm) (hties : ∀ f, (X.map (fun x => x f)).Nodup)
    (hgap : ∀ x ∈ X, ∀ y ∈ X, ∀ f, x f < y f → ∃ c ∈ Double, x f < c ∧ c < y f)
    {t : Tree d} (ht : growTree fl o rnd X Y dm sm nf false = .ok t) :
    (leaves t).flatten.Perm (X.zip Y) ∧ Respects t := by
  have hne : X ≠ [] := by rintro rfl; simp at hX
  obtain ⟨t', h', hg⟩ := growTree_grownF (fl := fl) ho hr h1 hd dm sm false hne hl
  rw [ht] at h'
  cases h'
  have hz : (X.zip Y).map (·.1) = X := List.map_fst_zip (by omega)
  have hin : ∀ p ∈ X.zip Y, p.1 ∈ X := by
    intro p hp
    rw [← hz]
    exact List.mem_map_of_mem hp
  have hresp : Respects t := by
    apply grownBy_respects h hsm hg
    · intro _
      rw [List.length_zip]
      omega
    · exact fun p hp => hXd _ (hin p hp)
    · exact fun p hp q hq => hgap _ (hin p hp) _ (hin q hq)
    · intro f
      have := hties f
      rw [← hz, List.map_map] at this
      exact this
  exact ⟨grownBy_perm hg hresp, hresp⟩

example : ∃ t, growTree (d := 1) roundUp ⟨inTurn, inTurn⟩ (fun _ => firstRnd 1)
    [fun _ => 0, fun _ => 1] [3, 4] 5 1 1 false = .ok t ∧
    (leaves t).flatten.Perm [(fun _ => 0, 3), (fun _ => 1, 4)] := by
  obtain ⟨t, ht, _⟩ := C137_grows (fl := roundUp) inTurn_sumsAll (fun _ => firstRnd_ok 1)
    (X := [fun _ => 0, fun _ => 1]) (Y := [3, 4]) (by simp) rfl (nf := 1) le_rfl le_rfl 5 1 false
  refine ⟨t, ht, (C137_no_ties roundUp_nearest inTurn_sumsAll (fun _ => firstRnd_ok 1) (by simp)
    (by simp) ?_ le_rfl le_rfl le_rfl ?_ ?_ ht).1⟩
  · intro x hx f
    rcases List.mem_pair.1 hx with rfl | rfl
    · exact double_zero
    · simpa using double_nat (m := 1) (by norm_num)
  · intro f
    simp
  · have hhalf : (1 / 2 : ℝ) ∈ Double := by
      have := double_half (e := -1) (by norm_num)
      norm_num at this ⊢
      exact this
    intro x hx y hy f hxy
    refine ⟨1 / 2, hhalf, ?_⟩
    rcases List.mem_pair.1 hx with rfl | rfl <;> rcases List.mem_pair.1 hy with rfl | rfl
    · norm_num at hxy
    · norm_num
    · norm_num at hxy
    · norm_num at hxy

/-! ### C137: neighbouring doubles -/

/-- Ties to even at `2 + 2^-52`. -/
noncomputable def tieDown (x : ℝ) : ℝ := if x = 2 + 1 / 2 ^ 52 then 2 else roundUp x

theorem tieDown_nearest : Nearest tieDown := by
  constructor
  · intro x
    unfold tieDown
    split_ifs
    · simpa using double_nat (m := 2) (by norm_num)
    · exact roundUp_nearest.mem x
  · intro x z hz
    unfold tieDown
    split_ifs with hx
    · subst hx
      rcases le_or_gt z 2 with h | h
      · rw [abs_of_nonpos (by norm_num), abs_of_nonpos (by linarith [show (0 : ℝ) < 1 / 2 ^ 52 by norm_num])]
        linarith
      · obtain ⟨m, e, hm, he, rfl⟩ := hz
        have he' : -1074 ≤ e - 1 := by
          by_contra hc
          have : e = -1074 := by omega
          subst this
          have h1 : (m : ℝ) < 2 ^ 53 := by
            have := (abs_lt.1 hm).2
            exact_mod_cast this
          have h2 : (2 : ℝ) ^ (-1074 : ℤ) ≤ (2 : ℝ) ^ (-53 : ℤ) := by
            apply zpow_le_zpow_right₀ <;> norm_num
          have h3 : (0 : ℝ) < (2 : ℝ) ^ (-1074 : ℤ) := by positivity
          have h4 : (m : ℝ) * (2 : ℝ) ^ (-1074 : ℤ) ≤ 2 ^ 53 * (2 : ℝ) ^ (-53 : ℤ) := by
            calc _ ≤ 2 ^ 53 * (2 : ℝ) ^ (-1074 : ℤ) := by gcongr
              _ ≤ _ := by gcongr
          have h5 : (2 : ℝ) ^ 53 * (2 : ℝ) ^ (-53 : ℤ) = 1 := by norm_num
          linarith
        have hh : (m : ℝ) * (2 : ℝ) ^ (e - 1) ∈ Double := ⟨m, e - 1, hm, he', rfl⟩
        have h2 : (m : ℝ) * (2 : ℝ) ^ e = 2 * ((m : ℝ) * (2 : ℝ) ^ (e - 1)) := by
          rw [zpow_sub₀ (by norm_num)]
          ring
        have h3 := double_gt_one hh (by linarith)
        rw [abs_of_nonpos (by norm_num), abs_of_nonneg (by linarith)]
        linarith
    · exact roundUp_nearest.near x z hz

/-- C137 needs the double between: the neighbours 1 and 1 + 2^-52 have the midpoint 1 (their sum is
a tie, broken to the even 2), which puts no row below. The tree holds both rows in both leaves. -/
theorem C137_violated (h : Nearest fl) (heven : fl (2 + 1 / 2 ^ 52) = 2) (ho : SumsAll o)
    {rnd : TreeRnd 1} (hr : TreeRndOk rnd) (y₁ y₂ : ℝ) (dm sm : ℤ) :
    ∃ t, growTree fl o rnd [fun _ => 1, fun _ => 1 + 1 / 2 ^ 52] [y₁, y₂] dm sm 1 false = .ok t ∧
      leaves t = [[(fun _ => 1, y₁), (fun _ => 1 + 1 / 2 ^ 52, y₂)],
        [(fun _ => 1, y₁), (fun _ => 1 + 1 / 2 ^ 52, y₂)]] := by
  have hX : ([fun _ => 1, fun _ => 1 + 1 / 2 ^ 52] : List (Point 1)) ≠ [] := by simp
  obtain ⟨f, v, hv, -, he⟩ := splitNode_found (fl := fl) (o := o) (Y := [y₁, y₂]) ho (hr []) hX rfl
    (nf := 1) le_rfl le_rfl false
  have hv1 : v = 1 := by
    rcases triedF_midpoint (hr []) hX hv with ⟨_, x, hx, y, hy, hxy, _, hve⟩ | ⟨_, hc, _⟩
    · rcases List.mem_pair.1 hx with rfl | rfl <;> rcases List.mem_pair.1 hy with rfl | rfl
      · norm_num at hxy
      · rw [hve, show (1 : ℝ) + (1 + 1 / 2 ^ 52) = 2 + 1 / 2 ^ 52 by ring, heven]
        rw [show (2 : ℝ) / 2 = 1 by norm_num]
        exact fl_of_mem h (by simpa using double_nat (m := 1) (by norm_num))
      · norm_num at hxy
      · norm_num at hxy
    · have := hc (fun _ => 1) (by simp) (fun _ => 1 + 1 / 2 ^ 52) (by simp)
      norm_num at this
  subst hv1
  have hz : List.zip ([fun _ => 1, fun _ => 1 + 1 / 2 ^ 52] : List (Point 1)) [y₁, y₂] =
      [(fun _ => 1, y₁), (fun _ => 1 + 1 / 2 ^ 52, y₂)] := rfl
  have hb : below [(fun _ => 1, y₁), ((fun _ => 1 + 1 / 2 ^ 52 : Point 1), y₂)] f 1 = [] := by
    simp [below]
  have hn : notBelow [(fun _ => 1, y₁), ((fun _ => 1 + 1 / 2 ^ 52 : Point 1), y₂)] f 1 =
      [(fun _ => 1, y₁), (fun _ => 1 + 1 / 2 ^ 52, y₂)] := by
    simp [notBelow]
  rw [hz, hb, hn] at he
  refine ⟨.node f 1 (.leaf [(fun _ => 1, y₁), (fun _ => 1 + 1 / 2 ^ 52, y₂)])
    (.leaf [(fun _ => 1, y₁), (fun _ => 1 + 1 / 2 ^ 52, y₂)]), ?_, rfl⟩
  unfold growTree
  rw [he]
  simp only [bind, Except.bind]
  rw [split]
  simp [pyAssert, bind, Except.bind, pure, Except.pure]

example : ∃ t, growTree tieDown ⟨inTurn, inTurn⟩ (fun _ => firstRnd 1)
    [fun _ => 1, fun _ => 1 + 1 / 2 ^ 52] [3, 4] 5 1 1 false = .ok t ∧ ¬ Respects t := by
  obtain ⟨t, ht, hL⟩ := C137_violated tieDown_nearest (if_pos rfl) inTurn_sumsAll
    (rnd := fun _ => firstRnd 1) (fun _ => firstRnd_ok 1) 3 4 5 1
  refine ⟨t, ht, fun hr => ?_⟩
  obtain ⟨t', ht', hg⟩ := growTree_grownF (fl := tieDown) (o := ⟨inTurn, inTurn⟩) inTurn_sumsAll
    (rnd := fun _ => firstRnd 1) (fun _ => firstRnd_ok 1) (nf := 1) le_rfl le_rfl 5 1 false
    (X := [fun _ => 1, fun _ => 1 + 1 / 2 ^ 52]) (Y := [3, 4]) (by simp) rfl
  rw [ht] at ht'
  cases ht'
  have := (grownBy_perm hg hr).length_eq
  rw [heldRows, hL] at this
  simp at this

/-! ### C137: samples and forests -/

/-- C137: `subsample` in double precision draws `int(n * ratio)` rows of the rounded product: as many
as the exact product has, or one more, and without replacement never more than there are. Inputs and
responses stay paired. -/
theorem C137_sample (h : Nearest fl) {choice : ℕ → ℕ → List ℕ} {replace : Bool}
    (hc : SampleOk choice replace) {X : List (Point d)} {Y : List ℝ} (hl : X.length = Y.length)
    (hX : X ≠ []) {ratio : ℝ} (h0 : 0 < ratio) (h1 : replace = false → ratio ≤ 1)
    (hn : X.length < 2 ^ 53) (hbig : X.length * ratio < 2 ^ 53 - 1) :
    ∃ (X' : List (Point d)) (Y' : List ℝ) (idx : List ℕ),
      subsample fl choice X Y ratio replace = .ok (X', Y') ∧
      ⌊X.length * ratio⌋₊ ≤ X'.length ∧ X'.length ≤ ⌊X.length * ratio⌋₊ + 1 ∧
      (ratio ≤ 1 → X'.length ≤ X.length) ∧ (ratio = 1 → X'.length = X.length) ∧
      Y'.length = X'.length ∧ idx.length = X'.length ∧
      (∀ (j i : ℕ), idx[j]? = some i → i < X.length ∧ X'[j]? = X[i]? ∧ Y'[j]? = Y[i]?) ∧
      (replace = false → idx.Nodup) := by
  have hpos : 0 < X.length := List.length_pos_iff.2 hX
  have hnn : (0 : ℝ) ≤ X.length * ratio := by positivity
  set k := ⌊fl ((X.length : ℝ) * ratio)⌋₊ with hk
  have hle1 : ratio ≤ 1 → k ≤ X.length := by
    intro hr
    have : (X.length : ℝ) * ratio ≤ X.length := mul_le_of_le_one_right (by positivity) hr
    calc k ≤ ⌊(X.length : ℝ)⌋₊ := Nat.floor_le_floor (fl_le_of_le h (double_nat hn) this)
      _ = X.length := Nat.floor_natCast _
  have hkle : replace = false → k ≤ X.length := fun hr => hle1 (h1 hr)
  obtain ⟨X', a1, a2, a3⟩ := takeRows_ok (X := X) (idx := choice X.length k)
    (hc.lt _ _ hpos hkle)
  obtain ⟨Y', b1, b2, b3⟩ := takeRows_ok (X := Y) (idx := choice X.length k)
    (fun i hi => hl ▸ hc.lt _ _ hpos hkle i hi)
  have hlen := hc.length X.length k hpos hkle
  have hXk : X'.length = k := by omega
  have hfl : (⌊(X.length : ℝ) * ratio⌋₊ : ℝ) ≤ X.length * ratio := Nat.floor_le hnn
  have hfl' : (X.length : ℝ) * ratio < ⌊(X.length : ℝ) * ratio⌋₊ + 1 := Nat.lt_floor_add_one _
  have hnat : ⌊(X.length : ℝ) * ratio⌋₊ + 1 < 2 ^ 53 := by
    have : ((⌊(X.length : ℝ) * ratio⌋₊ + 1 : ℕ) : ℝ) < ((2 ^ 53 : ℕ) : ℝ) := by
      push_cast
      linarith
    exact_mod_cast this
  refine ⟨X', Y', choice X.length k, ?_, ?_, ?_, ?_, ?_, by omega, by omega, ?_, ?_⟩
  · have hcond : ¬ ((X.length = 0 ∧ k > 0) ∨ (replace = false ∧ k > X.length)) := by
      rintro (⟨h, _⟩ | ⟨h, h'⟩)
      · omega
      · have := hkle h
        omega
    cases replace
    · have := h1 rfl
      simp only [subsample, pyAssert, hl, if_true, h0, this, and_self, Bool.false_eq_true, if_false,
        bind, Except.bind, pure, Except.pure]
      rw [← hl, ← hk, if_neg (by simpa using hcond), a1, b1]
    · simp only [subsample, pyAssert, hl, if_true, h0, gt_iff_lt,
        bind, Except.bind, pure, Except.pure]
      rw [← hl, ← hk, if_neg (by simpa using hcond), a1, b1]
  · rw [hXk]
    exact Nat.le_floor (le_fl_of_le h (double_nat (by omega)) hfl)
  · rw [hXk]
    have := fl_le_of_le h (double_nat hnat) (by push_cast; exact hfl'.le)
    exact (Nat.floor_le_floor this).trans (Nat.floor_natCast _).le
  · exact fun hr => hXk ▸ hle1 hr
  · rintro rfl
    rw [hXk, hk, mul_one, fl_of_mem h (double_nat hn), Nat.floor_natCast]
  · intro j i hj
    exact ⟨hc.lt _ _ hpos hkle i (List.mem_iff_getElem?.2 ⟨j, hj⟩), a3 j i hj, b3 j i hj⟩
  · intro hr
    exact hc.nodup hr _ _ hpos (hkle hr)

/-- C137: rounding does add a row. The double nearest to 0.6 is smaller than 0.6, so the exact
`int(5 * 0.6)` is 2; in double precision the product is 3. -/
theorem C137_sample_more (h : Nearest fl) :
    (5404319552844595 / 2 ^ 53 : ℝ) ∈ Double ∧
    ⌊(5 : ℝ) * (5404319552844595 / 2 ^ 53)⌋₊ = 2 ∧
    ⌊fl ((5 : ℝ) * (5404319552844595 / 2 ^ 53))⌋₊ = 3 := by
  refine ⟨⟨5404319552844595, -53, by norm_num, by norm_num, ?_⟩, ?_, ?_⟩
  · norm_num
  · rw [Nat.floor_eq_iff (by norm_num)]
    constructor <;> norm_num
  · have h3 : (3 : ℝ) ∈ Double := by simpa using double_nat (m := 3) (by norm_num)
    have hle : fl ((5 : ℝ) * (5404319552844595 / 2 ^ 53)) ≤ 3 := fl_le_of_le h h3 (by norm_num)
    have hge : 3 ≤ fl ((5 : ℝ) * (5404319552844595 / 2 ^ 53)) := by
      by_contra hlt
      rw [not_le] at hlt
      obtain ⟨m, e, hm, -, he⟩ := h.mem ((5 : ℝ) * (5404319552844595 / 2 ^ 53))
      have hlow : 3 - 1 / 2 ^ 52 ≤ fl ((5 : ℝ) * (5404319552844595 / 2 ^ 53)) := by
        have h1 := h.near ((5 : ℝ) * (5404319552844595 / 2 ^ 53)) 3 h3
        rw [show |(3 : ℝ) - 5 * (5404319552844595 / 2 ^ 53)| = 1 / 2 ^ 53 by norm_num] at h1
        have := (abs_le.1 h1).1
        norm_num at this ⊢
        linarith
      generalize fl ((5 : ℝ) * (5404319552844595 / 2 ^ 53)) = z at *
      have hm' : (m : ℝ) < 2 ^ 53 := by
        have := (abs_lt.1 hm).2
        exact_mod_cast this
      rcases le_or_gt (-51) e with hee | hee
      · obtain ⟨k, hk⟩ : ∃ k : ℤ, z = k * (2 : ℝ) ^ (-51 : ℤ) := by
          refine ⟨m * 2 ^ (e + 51).toNat, ?_⟩
          rw [he]
          push_cast
          rw [mul_assoc, ← zpow_natCast, Int.toNat_of_nonneg (by omega), ← zpow_add₀ (by norm_num)]
          congr 2
          ring
        rw [hk] at hlt hlow
        have hz : (2 : ℝ) ^ (-51 : ℤ) = 1 / 2 ^ 51 := by norm_num
        rw [hz] at hlt hlow
        have h1 : (k : ℝ) < ((3 * 2 ^ 51 : ℤ) : ℝ) := by
          push_cast
          have := mul_lt_mul_of_pos_right hlt (show (0 : ℝ) < 2 ^ 51 by norm_num)
          rw [mul_assoc] at this
          norm_num at this ⊢
          linarith
        have h2 : ((3 * 2 ^ 51 - 1 : ℤ) : ℝ) < (k : ℝ) := by
          push_cast
          have := mul_le_mul_of_nonneg_right hlow (show (0 : ℝ) ≤ 2 ^ 51 by norm_num)
          rw [mul_assoc (k : ℝ)] at this
          norm_num at this ⊢
          linarith
        have h1' : k < 3 * 2 ^ 51 := by exact_mod_cast h1
        have h2' : 3 * 2 ^ 51 - 1 < k := by exact_mod_cast h2
        omega
      · have h1 : (2 : ℝ) ^ e ≤ (2 : ℝ) ^ (-52 : ℤ) := zpow_le_zpow_right₀ (by norm_num) (by omega)
        have h2 : (0 : ℝ) < (2 : ℝ) ^ e := by positivity
        have h3 : (m : ℝ) * (2 : ℝ) ^ e ≤ 2 ^ 53 * (2 : ℝ) ^ (-52 : ℤ) := by
          calc _ ≤ 2 ^ 53 * (2 : ℝ) ^ e := by gcongr
            _ ≤ _ := by gcongr
        have h4 : (2 : ℝ) ^ 53 * (2 : ℝ) ^ (-52 : ℤ) = 2 := by norm_num
        rw [h4, ← he] at h3
        norm_num at hlow
        linarith
    rw [le_antisymm hle hge]
    norm_num

private theorem boot_treeF (h : Nearest fl) (ho : SumsAll o) {choice : ℕ → ℕ → List ℕ}
    {replace : Bool} (hc : SampleOk choice replace) {rnd : TreeRnd d} (hr : TreeRndOk rnd)
    {X : List (Point d)} {Y : List ℝ} (hl : X.length = Y.length) (hX : X ≠ []) {ratio : ℝ}
    (h0 : 0 < ratio) (h1 : replace = false → ratio ≤ 1) (hn : X.length < 2 ^ 53)
    (hbig : X.length * ratio < 2 ^ 53 - 1) (hk : 1 ≤ ⌊X.length * ratio⌋₊) {nf : ℤ} (hn1 : 1 ≤ nf)
    (hnd : nf ≤ d) (dm sm : ℤ) (rl : Bool) :
    ∃ X' Y' t, subsample fl choice X Y ratio replace = .ok (X', Y') ∧
      growTree fl o rnd X' Y' dm sm nf rl = .ok t ∧ SoundForest X Y dm [t] ∧
      ∀ L ∈ leaves t, L.length ≤ ⌊X.length * ratio⌋₊ + 1 := by
  obtain ⟨X', Y', idx, hs, hlen, hlen', _, _, hYX, hidx, hpair, _⟩ :=
    C137_sample h hc hl hX h0 h1 hn hbig
  have hX' : X' ≠ [] := by
    rintro rfl
    rw [List.length_nil] at hlen
    omega
  obtain ⟨t, ht, hg⟩ := growTree_grownF (fl := fl) ho hr hn1 hnd dm sm rl hX' hYX.symm
  refine ⟨X', Y', t, hs, ht, ⟨?_, ?_, ?_, ?_⟩, ?_⟩
  · intro t' h
    rw [List.mem_singleton.1 h]
    exact grownBy_not_leaf hg
  · intro t' h
    rw [List.mem_singleton.1 h]
    exact grownBy_leaves_ne_nil hg
  · intro t' h L hL p hp
    rw [List.mem_singleton.1 h] at hL
    have hmem := (grownBy_mem_heldRows hg p).1 (List.mem_flatten.2 ⟨L, hL, hp⟩)
    obtain ⟨j, hj⟩ := List.mem_iff_getElem?.1 hmem
    rw [List.getElem?_zip_eq_some] at hj
    have hjl : j < X'.length := (List.getElem?_eq_some_iff.1 hj.1).1
    obtain ⟨_, e1, e2⟩ := hpair j (idx[j]) (List.getElem?_eq_getElem (by omega))
    exact mem_zip_of_getElem? (by rw [← e1]; exact hj.1) (by rw [← e2]; exact hj.2)
  · intro t' h
    rw [List.mem_singleton.1 h]
    have := grownBy_depth_le hg
    simpa using this
  · intro L hL
    have := grownBy_leaves_length hg L hL
    rw [List.length_zip] at this
    omega

/-- C137: `get_generic_trees` in double precision succeeds as soon as the sample has a row and there
is a feature to draw; it returns `num_trees` trees whose leaves are non-empty and hold rows of the data
only. -/
theorem C137_generic_trees (h : Nearest fl) (ho : SumsAll o) {rnd : ForestRnd d} {replace : Bool}
    (hr : ForestRndOk rnd replace) {X : List (Point d)} {Y : List ℝ} (hl : X.length = Y.length)
    (hX : X ≠ []) {ratio : ℝ} (h0 : 0 < ratio) (h1 : replace = false → ratio ≤ 1)
    (hn : X.length < 2 ^ 53) (hbig : X.length * ratio < 2 ^ 53 - 1) (hk : 1 ≤ X.length * ratio)
    {nf : ℤ} (hn1 : 1 ≤ nf) (hnd : nf ≤ d) (num : ℕ) (dm sm : ℤ) (rl : Bool) :
    ∃ trees, getGenericTrees fl o rnd X Y num dm sm ratio replace nf rl = .ok trees ∧
      trees.length = num ∧ SoundForest X Y dm trees ∧
      ∀ t ∈ trees, ∀ L ∈ leaves t, L.length ≤ ⌊X.length * ratio⌋₊ + 1 := by
  have hk' : 1 ≤ ⌊X.length * ratio⌋₊ := Nat.le_floor (by simpa using hk)
  obtain ⟨trees, ht, hlen, hP⟩ := mapM_range_ok (fun k => do
      let (X_, Y_) ← subsample fl (rnd.sample k) X Y ratio replace
      growTree fl o (rnd.tree k) X_ Y_ dm sm nf rl) (fun _ t => SoundForest X Y dm [t] ∧
        ∀ L ∈ leaves t, L.length ≤ ⌊X.length * ratio⌋₊ + 1) num (by
    intro k
    obtain ⟨X', Y', t, hs, ht, hsound⟩ :=
      boot_treeF h ho (hr.sample k) (hr.tree k) hl hX h0 h1 hn hbig hk' hn1 hnd dm sm rl
    refine ⟨t, ?_, hsound⟩
    simp only [hs, bind, Except.bind]
    exact ht)
  have hall : ∀ t ∈ trees, SoundForest X Y dm [t] ∧
      ∀ L ∈ leaves t, L.length ≤ ⌊X.length * ratio⌋₊ + 1 := by
    intro t hm
    obtain ⟨k, hk⟩ := List.mem_iff_getElem?.1 hm
    exact hP k t hk
  refine ⟨trees, ?_, hlen, soundForest_of_all (fun t hm => (hall t hm).1), fun t hm => (hall t hm).2⟩
  cases replace
  · have := h1 rfl
    simp only [getGenericTrees, pyAssert, hl, if_true, h0, this, and_self, Bool.false_eq_true,
      if_false, Int.toNat_natCast]
    exact ht
  · simp only [getGenericTrees, pyAssert, hl, if_true, h0, gt_iff_lt, Int.toNat_natCast]
    exact ht

/-- C137: `get_random_forest` in double precision is `get_generic_trees` with the ratio 1, with
replacement and without random locations. -/
theorem C137_random_forest (rnd : ForestRnd d) (X : List (Point d)) (Y : List ℝ) (num dm sm nf : ℤ) :
    getRandomForest fl o rnd X Y num dm sm nf = getGenericTrees fl o rnd X Y num dm sm 1 true nf false := by
  simp [getRandomForest, getGenericTrees, pyAssert, bind, Except.bind]

/-- Ten trees of samples of two out of three rows. -/
example : ∃ trees, getGenericTrees (d := 1) roundUp ⟨inTurn, inTurn⟩
    ⟨fun _ _ k => List.range k, fun _ _ => firstRnd 1⟩
    [fun _ => 0, fun _ => 1, fun _ => 5] [3, 4, 9] (10 : ℕ) 5 1 (3 / 4) false 1 false = .ok trees ∧
    trees.length = 10 := by
  have hok : ForestRndOk (d := 1) ⟨fun _ _ k => List.range k, fun _ _ => firstRnd 1⟩ false :=
    ⟨fun _ => ⟨by simp, fun n k _ hk i hi => by
      have := List.mem_range.1 hi
      have := hk rfl
      omega, fun _ _ _ _ _ => List.nodup_range⟩, fun _ _ => firstRnd_ok 1⟩
  obtain ⟨t, h, hlen, _⟩ := C137_generic_trees (fl := roundUp) roundUp_nearest inTurn_sumsAll hok
    (X := [fun _ => 0, fun _ => 1, fun _ => 5]) (Y := [3, 4, 9]) rfl (by simp) (ratio := 3 / 4)
    (by norm_num) (by norm_num) (by simp) (by norm_num) (by norm_num) (nf := 1) le_rfl le_rfl 10 5 1 false
  exact ⟨t, h, hlen⟩

/-! ### C138: the chosen split -/

/-- C138: with responses of at most `M`, `M^2 <= 4e7`, the split chosen in double precision separates
the rows whenever a tried split does, and then its exact cost is at most that of any tried split plus
`20 (n + 8) M^2 / 2^53`. -/
theorem C138_near_best (h : Nearest fl) (ho : SumsAll o) {r : NodeRnd d} (hr : NodeRndOk r)
    {X : List (Point d)} {Y : List ℝ} (hX : X ≠ []) (hl : X.length = Y.length)
    (hYd : ∀ y ∈ Y, y ∈ Double) {M : ℝ} (hM0 : (2 : ℝ) ^ (-500 : ℤ) ≤ M) (hM1 : M ^ 2 ≤ 40000000)
    (hM : ∀ y ∈ Y, |y| ≤ M) (hn : ((X.length : ℝ) + 8) / 2 ^ 52 ≤ 1 / 64) {nf : ℤ} (h1 : 1 ≤ nf)
    (hd : nf ≤ d) (rl : Bool) :
    ∃ (f : Fin d) (v : ℝ) (node : Best d), splitNode fl o r X Y nf rl = .ok node ∧
      node.found = some (f, v, below (X.zip Y) f v, notBelow (X.zip Y) f v) ∧
      (f, v) ∈ triedF fl r X nf rl ∧
      ∀ f' v', (f', v') ∈ triedF fl r X nf rl → below (X.zip Y) f' v' ≠ [] →
        notBelow (X.zip Y) f' v' ≠ [] →
        below (X.zip Y) f v ≠ [] ∧ notBelow (X.zip Y) f v ≠ [] ∧
        splitCost (X.zip Y) f v ≤
          splitCost (X.zip Y) f' v' + 20 * ((X.length : ℝ) + 8) / 2 ^ 53 * M ^ 2 := by
  obtain ⟨f, v, ht, hle, he⟩ := splitNode_found (fl := fl) (o := o) ho hr hX hl h1 hd rl
  refine ⟨f, v, _, he, rfl, ht, ?_⟩
  intro f' v' ht' hb hn'
  have hlen : (X.zip Y).length = X.length := by rw [List.length_zip]; omega
  have hz2 : (X.zip Y).map (·.2) = Y := List.map_snd_zip (by omega)
  have hin : ∀ p ∈ X.zip Y, p.2 ∈ Y := by
    intro p hp
    rw [← hz2]
    exact List.mem_map_of_mem hp
  have hsmall : 2 * (((X.zip Y).length : ℝ) + 8) * (1 / 2 ^ 53) ≤ 1 / 64 := by
    rw [hlen]
    calc _ = ((X.length : ℝ) + 8) / 2 ^ 52 := by ring
      _ ≤ _ := hn
  have err : ∀ f v, below (X.zip Y) f v ≠ [] → notBelow (X.zip Y) f v ≠ [] → _ := fun f v hb hn' =>
    splitCostF_error h ho hb hn' (fun p hp => hYd _ (hin p hp)) hM0 (fun p hp => hM _ (hin p hp)) hsmall
  obtain ⟨e1, e2⟩ := err f' v' hb hn'
  have hcost := hle _ ht'
  have hE : 5 * (2 * (((X.zip Y).length : ℝ) + 8) * (1 / 2 ^ 53)) * M ^ 2 ≤ 5 / 64 * M ^ 2 := by
    have := mul_le_mul_of_nonneg_right hsmall (sq_nonneg M)
    linarith
  have hbig : splitCostF fl o (X.zip Y) f' v' < 100000000 := by
    have := (abs_le.1 e1).2
    linarith
  have hsep : below (X.zip Y) f v ≠ [] ∧ notBelow (X.zip Y) f v ≠ [] := by
    by_contra hc
    have : below (X.zip Y) f v = [] ∨ notBelow (X.zip Y) f v = [] := by
      by_contra hc'
      exact hc ⟨fun h => hc' (Or.inl h), fun h => hc' (Or.inr h)⟩
    have := splitCostF_degenerate (o := o) h this
    simp only [] at hcost
    linarith
  obtain ⟨e3, _⟩ := err f v hsep.1 hsep.2
  refine ⟨hsep.1, hsep.2, ?_⟩
  have a1 := (abs_le.1 e1).2
  have a2 := (abs_le.1 e3).1
  have e : 20 * ((X.length : ℝ) + 8) / 2 ^ 53 * M ^ 2 =
      2 * (5 * (2 * (((X.zip Y).length : ℝ) + 8) * (1 / 2 ^ 53)) * M ^ 2) := by
    rw [hlen]
    ring
  rw [e]
  simp only [] at hcost
  linarith

/-- C138: when all features are drawn, none has more than 21 distinct values and between any two values
there is another double, no threshold whatsoever that separates the rows does better than the chosen
one by more than rounding. -/
theorem C138_optimal (h : Nearest fl) (ho : SumsAll o) {r : NodeRnd d} (hr : NodeRndOk r)
    {X : List (Point d)} {Y : List ℝ} (hX : X ≠ []) (hl : X.length = Y.length)
    (hXd : ∀ x ∈ X, ∀ f, x f ∈ Double) (hYd : ∀ y ∈ Y, y ∈ Double)
    (hgap : ∀ x ∈ X, ∀ y ∈ X, ∀ f, x f < y f → ∃ c ∈ Double, x f < c ∧ c < y f)
    {M : ℝ} (hM0 : (2 : ℝ) ^ (-500 : ℤ) ≤ M) (hM1 : M ^ 2 ≤ 40000000)
    (hM : ∀ y ∈ Y, |y| ≤ M) (hn : ((X.length : ℝ) + 8) / 2 ^ 52 ≤ 1 / 64) (hd : 1 ≤ d)
    (hfew : ∀ f, ((X.map (fun x => x f)).toFinset).card ≤ 21) :
    ∃ (f : Fin d) (v : ℝ) (node : Best d), splitNode fl o r X Y d false = .ok node ∧
      node.found = some (f, v, below (X.zip Y) f v, notBelow (X.zip Y) f v) ∧
      ∀ (f' : Fin d) (v' : ℝ), below (X.zip Y) f' v' ≠ [] → notBelow (X.zip Y) f' v' ≠ [] →
        splitCost (X.zip Y) f v ≤
          splitCost (X.zip Y) f' v' + 20 * ((X.length : ℝ) + 8) / 2 ^ 53 * M ^ 2 := by
  obtain ⟨f, v, node, he, hf, -, hbest⟩ :=
    C138_near_best h ho hr hX hl hYd hM0 hM1 hM hn (nf := d) (by exact_mod_cast hd) le_rfl false
  refine ⟨f, v, node, he, hf, ?_⟩
  intro f' v' hb hn'
  have hfeat : f' ∈ r.features d := by
    have h1 := hr.features_length d (by omega) le_rfl
    have h2 := hr.features_nodup d (by omega) le_rfl
    have h3 : (r.features d).toFinset = Finset.univ := by
      apply Finset.eq_univ_of_card
      rw [List.toFinset_card_of_nodup h2, Fintype.card_fin]
      exact_mod_cast h1
    have : f' ∈ (r.features d).toFinset := by rw [h3]; simp
    simpa using this
  have hzX : (X.zip Y).map (·.1) = X := List.map_fst_zip (by omega)
  have hin : ∀ p ∈ X.zip Y, p.1 ∈ X := by
    intro p hp
    rw [← hzX]
    exact List.mem_map_of_mem hp
  obtain ⟨a, ha⟩ := npMax_exists (l := (below (X.zip Y) f' v').map (fun p => p.1 f'))
    (by simpa using hb)
  obtain ⟨b, hb'⟩ := npMin_exists (l := (notBelow (X.zip Y) f' v').map (fun p => p.1 f'))
    (by simpa using hn')
  rw [npMax_ok] at ha
  rw [npMin_ok] at hb'
  obtain ⟨p, hp, hpe⟩ := List.mem_map.1 ha.1
  obtain ⟨q, hq, hqe⟩ := List.mem_map.1 hb'.1
  have hpa := mem_below.1 hp
  have hqb := mem_notBelow.1 hq
  have hside : ∀ z ∈ X.zip Y, (z.1 f' < v' → z.1 f' ≤ a) ∧ (v' ≤ z.1 f' → b ≤ z.1 f') := by
    intro z hz
    exact ⟨fun h => ha.2 _ (List.mem_map.2 ⟨z, mem_below.2 ⟨hz, h⟩, rfl⟩),
      fun h => hb'.2 _ (List.mem_map.2 ⟨z, mem_notBelow.2 ⟨hz, h⟩, rfl⟩)⟩
  have hav : a < v' := by rw [← hpe]; exact hpa.2
  have hvb : v' ≤ b := by rw [← hqe]; exact hqb.2
  have hpq : p.1 f' < q.1 f' := by rw [hpe, hqe]; linarith
  obtain ⟨c, hc, hc1, hc2⟩ := hgap _ (hin p hpa.1) _ (hin q hqb.1) f' hpq
  obtain ⟨m1, m2⟩ := midpoint_between h (hXd _ (hin p hpa.1) f') (hXd _ (hin q hqb.1) f') hc hc1 hc2
  have hmem := triedF_all (fl := fl) hr hfeat (hfew f') (hin p hpa.1) (hin q hqb.1) hpq (by
    intro z hz
    rw [← hzX] at hz
    obtain ⟨w, hw, rfl⟩ := List.mem_map.1 hz
    rw [hpe, hqe]
    rcases lt_or_ge (w.1 f') v' with h | h
    · exact Or.inl ((hside w hw).1 h)
    · exact Or.inr ((hside w hw).2 h))
  rw [hpe, hqe] at m1 m2 hmem
  generalize fl (fl (a + b) / 2) = m at m1 m2 hmem
  have e1 : below (X.zip Y) f' m = below (X.zip Y) f' v' := by
    apply List.filter_congr
    intro z hz
    rcases lt_or_ge (z.1 f') v' with h | h
    · have h' := (hside z hz).1 h
      have : z.1 f' < m := by linarith
      simp [h, this]
    · have h' := (hside z hz).2 h
      have : ¬ z.1 f' < m := by linarith
      simp [not_lt.2 h, this]
  have e2 : notBelow (X.zip Y) f' m = notBelow (X.zip Y) f' v' := by
    apply List.filter_congr
    intro z hz
    rcases lt_or_ge (z.1 f') v' with h | h
    · have h' := (hside z hz).1 h
      have : z.1 f' < m := by linarith
      simp [h, this]
    · have h' := (hside z hz).2 h
      have : ¬ z.1 f' < m := by linarith
      simp only [this, not_lt.2 h]
  have := (hbest f' m hmem (by rw [e1]; exact hb) (by rw [e2]; exact hn')).2.2
  simpa [splitCost, e1, e2] using this

example {r : NodeRnd 1} (hr : NodeRndOk r) : ∃ (f : Fin 1) (v : ℝ) (node : Best 1),
    splitNode roundUp ⟨inTurn, inTurn⟩ r [fun _ => 0, fun _ => 1] [3, 4] (1 : ℕ) false = .ok node ∧
      node.found = some (f, v, below (List.zip [fun _ => 0, fun _ => 1] [3, 4]) f v,
        notBelow (List.zip [fun _ => 0, fun _ => 1] [3, 4]) f v) := by
  have hhalf : (1 / 2 : ℝ) ∈ Double := by
    have := double_half (e := -1) (by norm_num)
    norm_num at this ⊢
    exact this
  obtain ⟨f, v, node, h, h', _⟩ := C138_optimal (fl := roundUp) roundUp_nearest inTurn_sumsAll hr
    (X := [fun _ => 0, fun _ => 1]) (Y := [3, 4]) (by simp) (by simp)
    (by
      intro x hx f
      rcases List.mem_pair.1 hx with rfl | rfl
      · exact double_zero
      · simpa using double_nat (m := 1) (by norm_num))
    (by
      intro y hy
      rcases List.mem_pair.1 hy with rfl | rfl
      · simpa using double_nat (m := 3) (by norm_num)
      · simpa using double_nat (m := 4) (by norm_num))
    (by
      intro x hx y hy f hxy
      refine ⟨1 / 2, hhalf, ?_⟩
      rcases List.mem_pair.1 hx with rfl | rfl <;> rcases List.mem_pair.1 hy with rfl | rfl
      · norm_num at hxy
      · norm_num
      · norm_num at hxy
      · norm_num at hxy)
    (M := 4) (le_trans (zpow_le_one_of_nonpos₀ (by norm_num) (by norm_num)) (by norm_num)) (by norm_num)
    (by
      intro y hy
      rcases List.mem_pair.1 hy with rfl | rfl <;> norm_num)
    (by norm_num) le_rfl (fun f => (List.toFinset_card_le _).trans (by simp))
  exact ⟨f, v, node, h, h'⟩

end Verif.Props
