import Verif.Lemmas.Trees

/-! Growing trees from data in other units: inputs `s i * x i + t i` with `s i > 0`, responses
`a * y + b` with `a > 0`. -/

namespace Verif.Lemmas

open Verif.Spec Verif.Trees

variable {d : ℕ}

/-- A change of units. -/
structure Units (d : ℕ) where
  s : Fin d → ℝ
  t : Fin d → ℝ
  a : ℝ
  b : ℝ
  s_pos : ∀ i, 0 < s i
  a_pos : 0 < a

namespace Units

variable (u : Units d)

/-- The change of the `i`-th input. -/
def val (i : Fin d) (v : ℝ) : ℝ := u.s i * v + u.t i
/-- The change of an input. -/
def pt (x : Point d) : Point d := fun i => u.s i * x i + u.t i
/-- The change of a response. -/
def res (y : ℝ) : ℝ := u.a * y + u.b
/-- The change of a training pair. -/
def row (p : Row d) : Row d := (u.pt p.1, u.res p.2)

/-- The change of a tree. -/
def tree : Tree d → Tree d
  | .leaf rows => .leaf (rows.map u.row)
  | .node i v l r => .node i (u.val i v) (tree l) (tree r)

theorem val_lt (i : Fin d) {v w : ℝ} : u.val i v < u.val i w ↔ v < w := by
  simp only [val, add_lt_add_iff_right, mul_lt_mul_iff_right₀ (u.s_pos i)]

theorem val_inj (i : Fin d) : Function.Injective (u.val i) :=
  StrictMono.injective fun _ _ h => (u.val_lt i).2 h

end Units

open Units

theorem below_units (u : Units d) (data : List (Row d)) (f : Fin d) (v : ℝ) :
    below (data.map u.row) f (u.val f v) = (below data f v).map u.row := by
  unfold below
  rw [List.filter_map]
  congr 2
  funext p
  have := u.val_lt f (v := p.1 f) (w := v)
  exact decide_eq_decide.2 this

theorem notBelow_units (u : Units d) (data : List (Row d)) (f : Fin d) (v : ℝ) :
    notBelow (data.map u.row) f (u.val f v) = (notBelow data f v).map u.row := by
  unfold notBelow
  rw [List.filter_map]
  congr 2
  funext p
  have := u.val_lt f (v := p.1 f) (w := v)
  exact decide_eq_decide.2 (not_congr this)

theorem avg_units (u : Units d) {l : List ℝ} (h : l ≠ []) : avg (l.map u.res) = u.res (avg l) := by
  have hpos : (0 : ℝ) < l.length := by exact_mod_cast List.length_pos_iff.2 h
  have : ∀ l : List ℝ, (l.map u.res).sum = u.a * l.sum + l.length * u.b := by
    intro l
    induction l with
    | nil => simp
    | cons x t ih => simp only [List.map_cons, List.sum_cons, ih, res, List.length_cons]; push_cast; ring
  simp only [avg, this, List.length_map, res]
  field_simp

theorem msd_units (u : Units d) (c : ℝ) (l : List ℝ) :
    msd (u.res c) (l.map u.res) = u.a ^ 2 * msd c l := by
  have : (l.map u.res).map (fun y => (y - u.res c) ^ 2) =
      (l.map fun y => (y - c) ^ 2).map (u.a ^ 2 * ·) := by
    simp only [List.map_map]
    apply List.map_congr_left
    intro y _
    simp only [Function.comp_apply, res]
    ring
  have hsum : ∀ l : List ℝ, (l.map (u.a ^ 2 * ·)).sum = u.a ^ 2 * l.sum := by
    intro l; simpa using List.sum_map_mul_left (l := l) (f := id) (r := u.a ^ 2)
  rw [msd, msd, this, avg, avg, hsum, List.length_map, mul_div_assoc]

theorem sideCost_units (u : Units d) {l : List ℝ} (h : l ≠ []) :
    sideCost (l.map u.res) = u.a ^ 2 * sideCost l := by
  have h' : l.map u.res ≠ [] := by simpa using h
  rw [sideCost, if_neg h', avg_units u h, msd_units, sideCost, if_neg h]

/-- The responses are known to be such that the price of an empty side decides alike in both
units: the unit is the same, or both ranges are small. -/
def Tame (a : ℝ) (data : List (Row d)) : Prop :=
  a = 1 ∨ ∃ lo hi : ℝ, (∀ p ∈ data, lo ≤ p.2 ∧ p.2 ≤ hi) ∧ (hi - lo) ^ 2 < 200000000 ∧
    (a * (hi - lo)) ^ 2 < 200000000

theorem Tame.mono {a : ℝ} {data data' : List (Row d)} (h : Tame a data)
    (hs : ∀ p ∈ data', p ∈ data) : Tame a data' := by
  rcases h with h | ⟨lo, hi, h1, h2⟩
  · exact .inl h
  · exact .inr ⟨lo, hi, fun p hp => h1 p (hs p hp), h2⟩

theorem msd_avg_le {l : List ℝ} (h : l ≠ []) {lo hi : ℝ} (hl : ∀ y ∈ l, lo ≤ y ∧ y ≤ hi) :
    msd (avg l) l ≤ (hi - lo) ^ 2 / 4 := by
  have hpos : (0 : ℝ) < l.length := by exact_mod_cast List.length_pos_iff.2 h
  set c := (lo + hi) / 2 with hc
  have h1 : msd c l = msd (avg l) l + (avg l - c) ^ 2 := by
    rw [msd_eq h c]
  have h2 : msd c l ≤ (hi - lo) ^ 2 / 4 := by
    refine (avg_bounds (a := 0) (by simpa using h) ?_).2
    intro z hz
    obtain ⟨y, hy, rfl⟩ := List.mem_map.1 hz
    obtain ⟨h3, h4⟩ := hl y hy
    refine ⟨sq_nonneg _, ?_⟩
    rw [hc]
    nlinarith
  nlinarith [sq_nonneg (avg l - c)]

private theorem two_sides {data : List (Row d)} {f : Fin d} {v : ℝ}
    (h : below data f v = [] ∨ notBelow data f v = []) (hne : data ≠ []) :
    splitCost data f v = 100000000 + sideCost (data.map (·.2)) := by
  have hb : below data f v = [] → notBelow data f v = data := by
    intro h
    refine List.filter_eq_self.2 fun p hp => ?_
    have := List.filter_eq_nil_iff.1 h p hp
    simpa using this
  have hn : notBelow data f v = [] → below data f v = data := by
    intro h
    refine List.filter_eq_self.2 fun p hp => ?_
    have := List.filter_eq_nil_iff.1 h p hp
    simpa using this
  rcases h with h | h
  · rw [splitCost, h, hb h]; simp [sideCost]
  · rw [splitCost, h, hn h]; simp [sideCost, add_comm]

/-- The change of units keeps the order of the costs. -/
theorem splitCost_units (u : Units d) {data : List (Row d)} (hne : data ≠ [])
    (ht : Tame u.a data) (p q : Fin d × ℝ) :
    splitCost (data.map u.row) p.1 (u.val p.1 p.2) < splitCost (data.map u.row) q.1 (u.val q.1 q.2) ↔
      splitCost data p.1 p.2 < splitCost data q.1 q.2 := by
  have ha := u.a_pos
  have hrow : ∀ l : List (Row d), (l.map u.row).map (·.2) = (l.map (·.2)).map u.res := by
    intro l; simp [row]
  have hdeg : ∀ p : Fin d × ℝ, (below data p.1 p.2 = [] ∨ notBelow data p.1 p.2 = []) →
      splitCost data p.1 p.2 = 100000000 + sideCost (data.map (·.2)) ∧
      splitCost (data.map u.row) p.1 (u.val p.1 p.2) =
        100000000 + u.a ^ 2 * sideCost (data.map (·.2)) := by
    intro p h
    refine ⟨two_sides h hne, ?_⟩
    rw [two_sides (by simpa [below_units, notBelow_units] using h) (by simpa using hne), hrow,
      sideCost_units u (by simpa using hne)]
  have hnd : ∀ p : Fin d × ℝ, ¬ (below data p.1 p.2 = [] ∨ notBelow data p.1 p.2 = []) →
      splitCost (data.map u.row) p.1 (u.val p.1 p.2) = u.a ^ 2 * splitCost data p.1 p.2 := by
    intro p h
    push Not at h
    rw [splitCost, below_units, notBelow_units, hrow, hrow, sideCost_units u (by simpa using h.1),
      sideCost_units u (by simpa using h.2), splitCost]
    ring
  rcases ht with ht | ⟨lo, hi, hy, h1, h2⟩
  · have key : ∀ p : Fin d × ℝ, splitCost (data.map u.row) p.1 (u.val p.1 p.2) =
        splitCost data p.1 p.2 := by
      intro p
      by_cases h : below data p.1 p.2 = [] ∨ notBelow data p.1 p.2 = []
      · rw [(hdeg p h).1, (hdeg p h).2, ht]; ring
      · rw [hnd p h, ht]; ring
    rw [key, key]
  · have hs0 : 0 ≤ sideCost (data.map (·.2)) := by
      rw [sideCost, if_neg (by simpa using hne)]; exact msd_nonneg _ _
    have small : ∀ p : Fin d × ℝ, ¬ (below data p.1 p.2 = [] ∨ notBelow data p.1 p.2 = []) →
        splitCost data p.1 p.2 ≤ (hi - lo) ^ 2 / 2 := by
      intro p h
      push Not at h
      have e1 := msd_avg_le (l := (below data p.1 p.2).map (·.2)) (by simpa using h.1) (lo := lo)
        (hi := hi) (by
          intro y hy'
          obtain ⟨r, hr, rfl⟩ := List.mem_map.1 hy'
          exact hy r (mem_below.1 hr).1)
      have e2 := msd_avg_le (l := (notBelow data p.1 p.2).map (·.2)) (by simpa using h.2) (lo := lo)
        (hi := hi) (by
          intro y hy'
          obtain ⟨r, hr, rfl⟩ := List.mem_map.1 hy'
          exact hy r (mem_notBelow.1 hr).1)
      rw [splitCost, sideCost, sideCost, if_neg (by simpa using h.1), if_neg (by simpa using h.2)]
      linarith
    have hsq : 0 < u.a ^ 2 := by positivity
    by_cases hp : below data p.1 p.2 = [] ∨ notBelow data p.1 p.2 = [] <;>
      by_cases hq : below data q.1 q.2 = [] ∨ notBelow data q.1 q.2 = []
    · rw [(hdeg p hp).1, (hdeg p hp).2, (hdeg q hq).1, (hdeg q hq).2]
      simp
    · have e := small q hq
      rw [(hdeg p hp).1, (hdeg p hp).2, hnd q hq]
      have : u.a ^ 2 * splitCost data q.1 q.2 ≤ u.a ^ 2 * ((hi - lo) ^ 2 / 2) :=
        mul_le_mul_of_nonneg_left e hsq.le
      have : 0 ≤ u.a ^ 2 * sideCost (data.map (·.2)) := mul_nonneg hsq.le hs0
      constructor <;> intro h <;> nlinarith
    · have e := small p hp
      rw [(hdeg q hq).1, (hdeg q hq).2, hnd p hp]
      have : u.a ^ 2 * splitCost data p.1 p.2 ≤ u.a ^ 2 * ((hi - lo) ^ 2 / 2) :=
        mul_le_mul_of_nonneg_left e hsq.le
      have : 0 ≤ u.a ^ 2 * sideCost (data.map (·.2)) := mul_nonneg hsq.le hs0
      constructor <;> intro h <;> nlinarith
    · rw [hnd p hp, hnd q hq, mul_lt_mul_iff_right₀ hsq]

theorem levels_units (u : Units d) (X : List (Point d)) (f : Fin d) :
    levels (X.map u.pt) f = (levels X f).map (u.val f) := by
  have h1 := levels_sorted (X.map u.pt) f
  have h2 : ((levels X f).map (u.val f)).Pairwise (· < ·) :=
    List.pairwise_map.2 ((levels_sorted X f).imp fun h => (u.val_lt f).2 h)
  refine List.Perm.eq_of_pairwise (le := (· < ·)) ?_ h1 h2 ?_
  · intro a b _ _ h h'; exact absurd h' (not_lt.2 h.le)
  · refine (List.perm_ext_iff_of_nodup (h1.imp fun h => h.ne) (h2.imp fun h => h.ne)).2 fun v => ?_
    rw [mem_levels, List.mem_map]
    constructor
    · rintro ⟨x, hx, rfl⟩
      obtain ⟨z, hz, rfl⟩ := List.mem_map.1 hx
      exact ⟨z f, mem_levels.2 ⟨z, hz, rfl⟩, rfl⟩
    · rintro ⟨w, hw, rfl⟩
      obtain ⟨x, hx, rfl⟩ := mem_levels.1 hw
      exact ⟨u.pt x, List.mem_map_of_mem hx, rfl⟩

private theorem getD_map {l : List ℝ} (g : ℝ → ℝ) {i : ℕ} (hi : i < l.length) :
    (l.map g).getD i 0 = g (l.getD i 0) := by
  simp [hi]

theorem tried_units (u : Units d) {r : NodeRnd d} (hr : NodeRndOk r) {X : List (Point d)}
    (hX : X ≠ []) (nf : ℤ) (rl : Bool) :
    tried r (X.map u.pt) nf rl = (tried r X nf rl).map fun q => (q.1, u.val q.1 q.2) := by
  unfold tried
  rw [List.map_flatMap]
  apply List.flatMap_congr
  rintro ⟨f, k⟩ -
  have hpos : 0 < (levels X f).length := List.length_pos_iff.2 (levels_ne_nil hX f)
  rw [List.map_map]
  cases rl
  · simp only [Bool.false_eq_true, if_false, triedMidpoints, levels_units, List.length_map]
    by_cases h : (levels X f).length > 1
    · simp only [h, if_true, List.map_map]
      apply List.map_congr_left
      intro i hi
      have := hr.locs_lt k _ _ (min_le_right 20 ((levels X f).length - 1)) i hi
      simp only [Function.comp_apply]
      rw [getD_map _ (by omega), getD_map _ (by omega)]
      simp only [val]
      congr 1
      ring
    · simp only [h, if_false, List.map_map]
      apply List.map_congr_left
      intro i _
      simp only [Function.comp_apply]
      rw [getD_map _ hpos]
  · simp only [if_true, triedRandom, levels_units, List.length_map, List.map_cons, List.map_nil,
      Function.comp_apply]
    rw [getD_map _ hpos, getD_map _ (by omega)]
    simp only [val]
    congr 2
    ring

/-- A node in other units. -/
def Units.found (u : Units d) (x : Fin d × ℝ × (List (Row d) × List (Row d))) :
    Fin d × ℝ × (List (Row d) × List (Row d)) :=
  (x.1, u.val x.1 x.2.1, x.2.2.1.map u.row, x.2.2.2.map u.row)

theorem stepBest_units (u : Units d) {data : List (Row d)} (hne : data ≠ []) (ht : Tame u.a data)
    (l : List (Fin d × ℝ)) : ∀ cur cur' : Best d,
    (cur.score = .pinf ∧ cur'.score = .pinf ∨ ∃ p : Fin d × ℝ,
      cur.score = .fin (splitCost data p.1 p.2) ∧
      cur'.score = .fin (splitCost (data.map u.row) p.1 (u.val p.1 p.2))) →
    cur'.found = cur.found.map u.found →
    ((l.map fun q => (q.1, u.val q.1 q.2)).foldl (stepBest (data.map u.row)) cur').found =
      (l.foldl (stepBest data) cur).found.map u.found := by
  induction l with
  | nil => intro cur cur' _ h; exact h
  | cons q l ih =>
    intro cur cur' hs hf
    rw [List.map_cons, List.foldl_cons, List.foldl_cons]
    have hiff : Flt.fin (splitCost (data.map u.row) q.1 (u.val q.1 q.2)) < cur'.score ↔
        Flt.fin (splitCost data q.1 q.2) < cur.score := by
      rcases hs with ⟨e1, e2⟩ | ⟨p, e1, e2⟩
      · rw [e1, e2]; exact ⟨fun _ => trivial, fun _ => trivial⟩
      · rw [e1, e2]; exact splitCost_units u hne ht q p
    by_cases h : Flt.fin (splitCost data q.1 q.2) < cur.score
    · refine ih _ _ (.inr ⟨q, ?_, ?_⟩) ?_
      · simp [stepBest, h]
      · simp [stepBest, hiff.2 h]
      · simp [stepBest, h, hiff.2 h, found, below_units, notBelow_units]
    · have h' := mt hiff.1 h
      refine ih _ _ ?_ ?_
      · simpa [stepBest, h, h'] using hs
      · simpa [stepBest, h, h'] using hf

theorem splitNode_units (u : Units d) {r : NodeRnd d} (hr : NodeRndOk r) {data : List (Row d)}
    (hne : data ≠ []) (ht : Tame u.a data) {nf : ℤ} (h1 : 1 ≤ nf) (hd : nf ≤ d) (rl : Bool) :
    ∃ (n n' : Best d) (f : Fin d) (v : ℝ),
      splitNode r (getInputsFromLeaf data) (getOutputsFromLeaf data) nf rl = .ok n ∧
      splitNode r (getInputsFromLeaf (data.map u.row)) (getOutputsFromLeaf (data.map u.row)) nf rl =
        .ok n' ∧ n.found = some (f, v, below data f v, notBelow data f v) ∧
      n'.found = n.found.map u.found := by
  have hX : getInputsFromLeaf data ≠ [] := by simpa [getInputsFromLeaf] using hne
  have hl : ∀ data : List (Row d), (getInputsFromLeaf data).length =
      (getOutputsFromLeaf data).length := by simp [getInputsFromLeaf, getOutputsFromLeaf]
  have hin : getInputsFromLeaf (data.map u.row) = (getInputsFromLeaf data).map u.pt := by
    simp [getInputsFromLeaf, row]
  obtain ⟨i, f, v, -, -, -, e⟩ := splitNode_found hr hX (hl data) h1 hd rl
  rw [zip_inputs_outputs] at e
  have e1 := splitNode_eq hr hX (hl data) (by omega) hd rl
  have e2 := splitNode_eq (Y := getOutputsFromLeaf (data.map u.row)) hr
    (X := getInputsFromLeaf (data.map u.row)) (by rw [hin]; simpa using hX) (hl _)
    (show 0 ≤ nf by omega) hd rl
  rw [zip_inputs_outputs] at e1 e2
  rw [hin, tried_units u hr hX, ← hin] at e2
  refine ⟨_, _, f, v, e, e2, rfl, ?_⟩
  rw [stepBest_units u hne ht _ Best.init Best.init (.inl ⟨rfl, rfl⟩) rfl,
    Except.ok.inj (e1.symm.trans e)]

theorem split_units (u : Units d) {rnd : TreeRnd d} (hr : TreeRndOk rnd) {nf : ℤ} (h1 : 1 ≤ nf)
    (hd : nf ≤ d) (dm sm : ℤ) (rl : Bool) :
    ∀ (fuel : ℕ) (path : List Bool) (data : List (Row d)) (c : ℤ) (f : Fin d) (v : ℝ)
      (n n' : Best d), (dm - c).toNat ≤ fuel → Tame u.a data →
      n.found = some (f, v, below data f v, notBelow data f v) → n'.found = n.found.map u.found →
      split rnd path n' dm sm nf rl c = (split rnd path n dm sm nf rl c).map u.tree := by
  intro fuel
  induction fuel with
  | zero =>
    intro path data c f v n n' hf ht hn hn'
    rw [split, split]
    rw [hn', hn]
    simp only [Option.map_some, found, pyAssert, List.map_eq_nil_iff, bind, Except.bind, pure,
      Except.pure]
    by_cases hc : c > 0
    · simp only [hc, if_true]
      by_cases hdeg : below data f v = [] ∨ notBelow data f v = []
      · simp [hdeg, Except.map, Units.tree]
      · have : c ≥ dm := by omega
        simp [hdeg, this, Except.map, Units.tree]
    · simp [hc, Except.map]
  | succ fuel ih =>
    intro path data c f v n n' hf ht hn hn'
    rw [split, split]
    rw [hn', hn]
    simp only [Option.map_some, found, pyAssert, List.map_eq_nil_iff, bind, Except.bind, pure,
      Except.pure]
    by_cases hc : c > 0
    · simp only [hc, if_true]
      by_cases hdeg : below data f v = [] ∨ notBelow data f v = []
      · simp [hdeg, Except.map, Units.tree]
      · by_cases hdm : c ≥ dm
        · simp [hdeg, hdm, Except.map, Units.tree]
        · rw [if_neg hdeg, if_neg hdeg, dif_neg hdm, dif_neg hdm]
          push Not at hdeg
          have side : ∀ (path : List Bool) (rows : List (Row d)), rows ≠ [] → Tame u.a rows →
              (rows.length : ℤ) ≤ sm ∨ ¬ (rows.length : ℤ) ≤ sm ∧ ∃ m m',
                splitNode (rnd path) (getInputsFromLeaf rows) (getOutputsFromLeaf rows) nf rl =
                  .ok m ∧
                splitNode (rnd path) (getInputsFromLeaf (rows.map u.row))
                  (getOutputsFromLeaf (rows.map u.row)) nf rl = .ok m' ∧
                split rnd path m' dm sm nf rl (c + 1) =
                  (split rnd path m dm sm nf rl (c + 1)).map u.tree := by
            intro path rows hrows htr
            by_cases hs : (rows.length : ℤ) ≤ sm
            · exact .inl hs
            · obtain ⟨m, m', f', v', k1, k2, k3, k4⟩ :=
                splitNode_units u (hr path) hrows htr h1 hd rl
              exact .inr ⟨hs, m, m', k1, k2, ih path rows (c + 1) f' v' m m' (by omega) htr k3 k4⟩
          have kl := side (path ++ [true]) (below data f v) hdeg.1
            (ht.mono fun p hp => (mem_below.1 hp).1)
          have kr := side (path ++ [false]) (notBelow data f v) hdeg.2
            (ht.mono fun p hp => (mem_notBelow.1 hp).1)
          simp only [List.length_map]
          rcases kl with hsl | ⟨hsl, ml, ml', l1, l2, l3⟩ <;>
            rcases kr with hsr | ⟨hsr, mr, mr', r1, r2, r3⟩
          · simp [hsl, hsr, Except.map, Units.tree]
          · simp only [hsl, hsr, r1, r2, r3, if_true, if_false]
            rcases split rnd (path ++ [false]) mr dm sm nf rl (c + 1) with e | t <;>
              simp [Except.map, Units.tree]
          · simp only [hsl, hsr, l1, l2, l3, if_true, if_false]
            rcases split rnd (path ++ [true]) ml dm sm nf rl (c + 1) with e | t <;>
              simp [Except.map, Units.tree]
          · simp only [hsl, hsr, l1, l2, l3, r1, r2, r3, if_false]
            rcases split rnd (path ++ [true]) ml dm sm nf rl (c + 1) with e | t <;>
              rcases split rnd (path ++ [false]) mr dm sm nf rl (c + 1) with e' | t' <;>
              simp [Except.map, Units.tree]
    · simp [hc, Except.map]

theorem growTree_units (u : Units d) {rnd : TreeRnd d} (hr : TreeRndOk rnd) {nf : ℤ} (h1 : 1 ≤ nf)
    (hd : nf ≤ d) (dm sm : ℤ) (rl : Bool) {X : List (Point d)} {Y : List ℝ} (hX : X ≠ [])
    (hl : X.length = Y.length) (ht : Tame u.a (X.zip Y)) :
    growTree rnd (X.map u.pt) (Y.map u.res) dm sm nf rl =
      (growTree rnd X Y dm sm nf rl).map u.tree := by
  have hin : getInputsFromLeaf (X.zip Y) = X := List.map_fst_zip (by omega)
  have hout : getOutputsFromLeaf (X.zip Y) = Y := List.map_snd_zip (by omega)
  have hin' : getInputsFromLeaf ((X.zip Y).map u.row) = X.map u.pt := by
    conv_rhs => rw [← hin]
    simp [getInputsFromLeaf, row]
  have hout' : getOutputsFromLeaf ((X.zip Y).map u.row) = Y.map u.res := by
    conv_rhs => rw [← hout]
    simp [getOutputsFromLeaf, row]
  have hne : X.zip Y ≠ [] := by
    intro h
    rw [h] at hin
    exact hX hin.symm
  obtain ⟨m, m', f, v, k1, k2, k3, k4⟩ := splitNode_units u (hr []) hne ht h1 hd rl
  rw [hin, hout] at k1
  rw [hin', hout'] at k2
  simp only [growTree, k1, k2, bind, Except.bind]
  exact split_units u hr h1 hd dm sm rl _ [] (X.zip Y) 1 f v m m' le_rfl ht k3 k4

theorem mapM_except_map {α β γ : Type _} {f : α → Py β} {g : β → γ} {f' : α → Py γ} :
    ∀ {l : List α}, (∀ x ∈ l, f' x = (f x).map g) → l.mapM f' = (l.mapM f).map (List.map g)
  | [], _ => rfl
  | a :: l, h => by
    rw [List.mapM_cons, List.mapM_cons, h a (by simp),
      mapM_except_map (fun x hx => h x (by simp [hx]))]
    rcases f a with e | b <;> rcases l.mapM f with e' | bs <;>
      simp [Except.map, bind, Except.bind, pure, Except.pure]

theorem takeRows_map {α β : Type _} (g : α → β) (X : List α) (idx : List ℕ) :
    takeRows (X.map g) idx = (takeRows X idx).map (List.map g) := by
  refine mapM_except_map fun i _ => ?_
  unfold pyIndex
  rw [List.getElem?_map]
  cases X[i]? <;> rfl

theorem subsample_units (u : Units d) (choice : ℕ → ℕ → List ℕ) (X : List (Point d)) (Y : List ℝ)
    (ratio : ℝ) (replace : Bool) :
    subsample choice (X.map u.pt) (Y.map u.res) ratio replace =
      (subsample choice X Y ratio replace).map (Prod.map (List.map u.pt) (List.map u.res)) := by
  simp only [subsample, List.length_map, takeRows_map, pyAssert, bind, Except.bind, pure,
    Except.pure]
  by_cases h1 : X.length = Y.length
  swap
  · simp [h1, Except.map]
  simp only [h1, if_true]
  cases replace
  · simp only [Bool.false_eq_true, if_false]
    by_cases h2 : 0 < ratio ∧ ratio ≤ 1
    swap
    · simp [h2, Except.map]
    simp only [h2, if_true, and_self]
    split
    · rfl
    · cases takeRows X (choice Y.length ⌊(Y.length : ℝ) * ratio⌋₊) <;>
        cases takeRows Y (choice Y.length ⌊(Y.length : ℝ) * ratio⌋₊) <;> rfl
  · simp only [if_true]
    by_cases h2 : ratio > 0
    swap
    · simp [h2, Except.map]
    simp only [h2, if_true]
    split
    · rfl
    · cases takeRows X (choice Y.length ⌊(Y.length : ℝ) * ratio⌋₊) <;>
        cases takeRows Y (choice Y.length ⌊(Y.length : ℝ) * ratio⌋₊) <;> rfl

theorem npMean_units (u : Units d) (l : List ℝ) : npMean (l.map u.res) = (npMean l).map u.res := by
  by_cases h : l = []
  · simp [npMean, h, Except.map]
  · rw [npMean_ok (by simpa using h), npMean_ok h]
    exact congrArg _ (avg_units u h)

theorem leafPrediction_units (u : Units d) (rows : List (Row d)) :
    leafPrediction (rows.map u.row) =
      (leafPrediction rows).map (Prod.map u.res (u.a * ·)) := by
  by_cases h : rows = []
  · simp [h, leafPrediction, getOutputsFromLeaf, npMean, Except.map, bind, Except.bind]
  · have hrow : (rows.map u.row).map (·.2) = (rows.map (·.2)).map u.res := by simp [row]
    rw [leafPrediction_eq h, leafPrediction_eq (by simpa using h), hrow,
      avg_units u (by simpa using h), msd_units, Real.sqrt_mul (sq_nonneg _), Real.sqrt_sq u.a_pos.le]
    rfl

theorem predictByTree_units (u : Units d) (x : Point d) : ∀ t : Tree d,
    predictByTree (u.pt x) (u.tree t) = (predictByTree x t).map (Prod.map u.res (u.a * ·))
  | .leaf rows => rfl
  | .node f v l r => by
    have hl := predictByTree_units u x l
    have hr := predictByTree_units u x r
    have hlt : u.pt x f < u.val f v ↔ x f < v := u.val_lt f
    rw [Units.tree, predictByTree.eq_def, predictByTree.eq_def x]
    dsimp only
    by_cases h : x f < v
    · rw [if_pos (hlt.2 h), if_pos h]
      cases l with
      | leaf rows => exact leafPrediction_units u rows
      | node _ _ _ _ => exact hl
    · rw [if_neg (mt hlt.1 h), if_neg h]
      cases r with
      | leaf rows => exact leafPrediction_units u rows
      | node _ _ _ _ => exact hr

theorem computeSigma_units (u : Units d) {ms ss : List ℝ} (hl : ms.length = ss.length) :
    computeSigma (ms.map u.res) (ss.map (u.a * ·)) = (computeSigma ms ss).map (u.a * ·) := by
  by_cases hm : ms = []
  · subst hm
    have : ss = [] := List.length_eq_zero_iff.1 hl.symm
    subst this
    simp [computeSigma, pyAssert, npMean, bind, Except.bind, Except.map]
  · have ha := u.a_pos
    have hpos : (0 : ℝ) < ms.length := by exact_mod_cast List.length_pos_iff.2 hm
    have hne : ∀ (g : ℝ → ℝ → ℝ) (ms' ss' : List ℝ), ms' ≠ [] → ms'.length = ss'.length →
        List.zipWith g ms' ss' ≠ [] := by
      intro g ms' ss' h1 h2 h3
      rcases List.zipWith_eq_nil_iff.1 h3 with h | h
      · exact h1 h
      · exact h1 (List.length_eq_zero_iff.1 (by rw [h2, h]; rfl))
    have hss : (ss.map (u.a * ·)).map (fun s => max s (0 + 0)) =
        (ss.map fun s => max s (0 + 0)).map (u.a * ·) := by
      simp only [List.map_map]
      apply List.map_congr_left
      intro s _
      simp only [Function.comp_apply, add_zero]
      rw [mul_max_of_nonneg _ _ ha.le, mul_zero]
    have hsum : ∀ (ms ss : List ℝ), ms.length = ss.length →
        (List.zipWith (fun m s => m ^ 2 + s ^ 2) (ms.map u.res) (ss.map (u.a * ·))).sum =
        u.a ^ 2 * (List.zipWith (fun m s => m ^ 2 + s ^ 2) ms ss).sum +
          2 * u.a * u.b * ms.sum + ms.length * u.b ^ 2 := by
      intro ms
      induction ms with
      | nil => intro ss _; simp
      | cons m ms ih =>
        intro ss h
        cases ss with
        | nil => simp at h
        | cons s ss =>
          have := ih ss (by simpa using h)
          simp only [List.map_cons, List.zipWith_cons_cons, List.sum_cons, List.length_cons, this,
            res]
          push_cast
          ring
    simp only [computeSigma, pyAssert, List.length_map, hl, if_true, bind, Except.bind, pure,
      Except.pure, hss, npMean_units]
    rw [npMean_ok (hne _ _ _ (by simpa using hm) (by simpa using hl)),
      npMean_ok (hne _ _ _ hm (by simpa using hl)), npMean_ok hm]
    simp only [Except.map]
    congr 1
    simp only [avg, hsum _ _ (show ms.length = (ss.map fun s => max s (0 + 0)).length by simpa using hl),
      List.length_zipWith, List.length_map, ← hl, min_self]
    set A := (List.zipWith (fun m s => m ^ 2 + s ^ 2) ms (ss.map fun s => max s (0 + 0))).sum
    have e : (u.a ^ 2 * A + 2 * u.a * u.b * ms.sum + ms.length * u.b ^ 2) / ms.length -
        u.res (ms.sum / ms.length) ^ 2 = u.a ^ 2 * (A / ms.length - (ms.sum / ms.length) ^ 2) := by
      simp only [res]
      field_simp
      ring
    rw [e, show (0 : ℝ) = u.a ^ 2 * 0 by ring, ← mul_max_of_nonneg _ _ (sq_nonneg _), mul_zero,
      Real.sqrt_mul (sq_nonneg _), Real.sqrt_sq ha.le]

theorem predictByTreesOne_units (u : Units d) (x : Point d) (trees : List (Tree d)) :
    predictByTreesOne (u.pt x) (trees.map u.tree) =
      (predictByTreesOne x trees).map (Prod.map u.res (u.a * ·)) := by
  have : (trees.map u.tree).mapM (predictByTree (u.pt x)) =
      (trees.mapM (predictByTree x)).map (List.map (Prod.map u.res (u.a * ·))) := by
    rw [List.mapM_map]
    exact mapM_except_map fun t _ => predictByTree_units u x t
  simp only [predictByTreesOne, this, bind, Except.bind]
  rcases trees.mapM (predictByTree x) with e | ps
  · rfl
  · have e1 : (ps.map (Prod.map u.res (u.a * ·))).map (·.1) = (ps.map (·.1)).map u.res := by simp
    have e2 : (ps.map (Prod.map u.res (u.a * ·))).map (·.2) = (ps.map (·.2)).map (u.a * ·) := by
      simp
    simp only [Except.map, e1, e2, npMean_units, computeSigma_units u (ms := ps.map (·.1))
      (ss := ps.map (·.2)) (by simp)]
    generalize npMean (ps.map fun x => x.1) = A
    generalize computeSigma (ps.map fun x => x.1) (ps.map fun x => x.2) = B
    cases A <;> cases B <;> rfl

end Verif.Lemmas
