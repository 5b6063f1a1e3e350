import Verif.Spec.NonFinite
import Verif.Lemmas.Trees
import Verif.Lemmas.Curves

/-! Helper lemmas about responses that are infinite or NaN. -/

namespace Verif.NonFinite

open Verif.Spec Verif.Trees Verif.UtilsCommon

variable {d : ℕ}

/-! ### Costs -/

theorem meanF_fin (l : List ℝ) : meanF (l.map Flt.fin) = .fin (avg l) := by
  simp [meanF, sumF_fin, Flt.divPos, avg]

theorem mse1_fin (Y : List ℝ) : mse1 (Y.map Flt.fin) = .fin (sideCost Y) := by
  by_cases h : Y = []
  · subst h
    simp [mse1, sideCost]
    norm_num
  · have hl : 0 < Y.length := List.length_pos_iff.2 h
    have e : (Y.map Flt.fin).map (fun y => (y.sub (.fin (avg Y))).sq) =
        (Y.map fun y => (y - avg Y) ^ 2).map Flt.fin := by
      simp [Flt.sub, Flt.neg, Flt.add, Flt.sq, sq, sub_eq_add_neg]
    simp only [mse1, List.length_map, gt_iff_lt, hl, if_true, meanF_fin, e]
    simp [sideCost, h, msd]

theorem add_nan_right (a : Flt) : a.add .nan = .nan := by cases a <;> rfl

theorem foldl_add_nan : ∀ (l : List Flt) (a : Flt), (a = .nan ∨ Flt.nan ∈ l) →
    l.foldl Flt.add a = .nan
  | [], a, h => by simpa using h
  | b :: t, a, h => by
    rw [List.foldl_cons]
    refine foldl_add_nan t _ ?_
    rcases h with rfl | h
    · left; cases b <;> rfl
    · rcases List.mem_cons.1 h with rfl | h
      · left; exact add_nan_right a
      · exact Or.inr h

theorem foldl_add_pinf : ∀ (l : List Flt) (a : Flt), (a = .pinf ∨ Flt.pinf ∈ l) →
    l.foldl Flt.add a = .pinf ∨ l.foldl Flt.add a = .nan
  | [], a, h => by simpa using Or.inl h
  | b :: t, a, h => by
    rw [List.foldl_cons]
    rcases h with rfl | h
    · cases b
      · exact foldl_add_pinf t _ (Or.inl rfl)
      · exact foldl_add_pinf t _ (Or.inl rfl)
      · exact Or.inr (foldl_add_nan t _ (Or.inl rfl))
      · exact Or.inr (foldl_add_nan t _ (Or.inl rfl))
    · rcases List.mem_cons.1 h with rfl | h
      · cases a
        · exact foldl_add_pinf t _ (Or.inl rfl)
        · exact foldl_add_pinf t _ (Or.inl rfl)
        · exact Or.inr (foldl_add_nan t _ (Or.inl rfl))
        · exact Or.inr (foldl_add_nan t _ (Or.inl rfl))
      · exact foldl_add_pinf t _ (Or.inr h)

theorem foldl_add_ninf : ∀ (l : List Flt) (a : Flt), (a = .ninf ∨ Flt.ninf ∈ l) →
    l.foldl Flt.add a = .ninf ∨ l.foldl Flt.add a = .nan
  | [], a, h => by simpa using Or.inl h
  | b :: t, a, h => by
    rw [List.foldl_cons]
    rcases h with rfl | h
    · cases b
      · exact foldl_add_ninf t _ (Or.inl rfl)
      · exact Or.inr (foldl_add_nan t _ (Or.inl rfl))
      · exact foldl_add_ninf t _ (Or.inl rfl)
      · exact Or.inr (foldl_add_nan t _ (Or.inl rfl))
    · rcases List.mem_cons.1 h with rfl | h
      · cases a
        · exact foldl_add_ninf t _ (Or.inl rfl)
        · exact Or.inr (foldl_add_nan t _ (Or.inl rfl))
        · exact foldl_add_ninf t _ (Or.inl rfl)
        · exact Or.inr (foldl_add_nan t _ (Or.inl rfl))
      · exact foldl_add_ninf t _ (Or.inr h)

/-- A response that is not a number is not a number away from the mean. -/
theorem sub_mean_nan {Y : List Flt} {y : Flt} (hy : y ∈ Y) (h : ¬ IsNumber y) :
    y.sub (meanF Y) = .nan := by
  unfold meanF sumF
  cases y with
  | fin x => exact absurd ⟨x, rfl⟩ h
  | pinf =>
    rcases foldl_add_pinf Y (.fin 0) (Or.inr hy) with e | e <;> rw [e] <;> rfl
  | ninf =>
    rcases foldl_add_ninf Y (.fin 0) (Or.inr hy) with e | e <;> rw [e] <;> rfl
  | nan => rfl

theorem mse1_nan {Y : List Flt} {y : Flt} (hy : y ∈ Y) (h : ¬ IsNumber y) : mse1 Y = .nan := by
  have hl : Y.length > 0 := List.length_pos_of_mem hy
  simp only [mse1, hl, if_true]
  have : Flt.nan ∈ Y.map fun z => (z.sub (meanF Y)).sq :=
    List.mem_map.2 ⟨y, hy, by rw [sub_mean_nan hy h]; rfl⟩
  conv_lhs => rw [meanF, sumF]
  rw [foldl_add_nan _ _ (Or.inr this)]
  rfl

theorem nan_add (a : Flt) : Flt.nan.add a = .nan := by cases a <;> rfl

/-! ### Trees on finite responses -/

/-- A pair with a finite response. -/
def asRowF (p : Row d) : RowF d := (p.1, .fin p.2)

/-- A split of finite responses. -/
def asBestF (b : Best d) : BestF d :=
  { score := b.score
    found := b.found.map fun q => (q.1, q.2.1, q.2.2.1.map asRowF, q.2.2.2.map asRowF) }

theorem maskSelect_map {α β : Type _} (f : α → β) (m : List Bool) (l : List α) :
    maskSelect m (l.map f) = (maskSelect m l).map f := by
  unfold maskSelect
  rw [List.zip_map_right, List.filter_map, List.map_map, List.map_map]
  rfl

theorem zip_asRowF (X : List (Point d)) (Y : List ℝ) :
    X.zip (Y.map Flt.fin) = (X.zip Y).map asRowF := by
  rw [List.zip_map_right]
  rfl

theorem splitLeftRight_fin (X : List (Point d)) (Y : List ℝ) (f : Fin d) (v : ℝ) :
    splitLeftRight X (Y.map Flt.fin) f v =
      (Trees.splitLeftRight X Y f v).map fun q => (q.1.map asRowF, q.2.map asRowF) := by
  unfold splitLeftRight Trees.splitLeftRight
  by_cases h : X.length = Y.length
  · simp [pyAssert, h, bind, Except.bind, pure, Except.pure, maskSelect_map, zip_asRowF, Except.map]
  · simp [pyAssert, h, bind, Except.bind, Except.map]

theorem asRowF_snd (l : List (Row d)) :
    (l.map asRowF).map (·.2) = (l.map (·.2)).map Flt.fin := by
  simp [asRowF, Function.comp_def]

theorem asRowF_fst (l : List (Row d)) : (l.map asRowF).map (·.1) = l.map (·.1) := by
  simp [asRowF, Function.comp_def]

theorem mse_fin (l r : List (Row d)) : mse (l.map asRowF, r.map asRowF) =
    .fin (sideCost (l.map (·.2)) + sideCost (r.map (·.2))) := by
  simp only [mse, asRowF_snd, mse1_fin]
  rfl

theorem tryLoc_fin (X : List (Point d)) (Y : List ℝ) (f : Fin d) (cur : Best d) (i : ℕ) :
    tryLoc X (Y.map Flt.fin) f (asBestF cur) i = (Trees.tryLoc X Y f cur i).map asBestF := by
  unfold tryLoc Trees.tryLoc
  rw [show (fun a => _) = _ from rfl]
  cases valToSplit X f i with
  | error e => rfl
  | ok v =>
    simp only [bind, Except.bind, splitLeftRight_fin]
    cases Trees.splitLeftRight X Y f v with
    | error e => rfl
    | ok q =>
      obtain ⟨l, r⟩ := q
      simp only [Except.map, mse_fin, Trees.mse_eq, pure, Except.pure]
      have : (asBestF cur).score = cur.score := rfl
      rw [this]
      split_ifs <;> rfl

theorem foldlM_asF {α β γ : Type} {F : β → α → Py β} {G : γ → α → Py γ} (g : β → γ)
    (h : ∀ b a, G (g b) a = (F b a).map g) : ∀ (l : List α) (b : β),
    l.foldlM G (g b) = (l.foldlM F b).map g
  | [], b => rfl
  | a :: t, b => by
    rw [List.foldlM_cons, List.foldlM_cons, h]
    cases F b a with
    | error e => rfl
    | ok b' => exact foldlM_asF g h t b'

theorem splitFeature_fin (r : NodeRnd d) (X : List (Point d)) (Y : List ℝ) (rl : Bool)
    (f : Fin d) (k : ℕ) : splitFeature r X (Y.map Flt.fin) rl f k =
      (Trees.splitFeature r X Y rl f k).map asBestF := by
  unfold splitFeature Trees.splitFeature
  cases rl
  · simp only [Bool.false_eq_true, if_false, splitDeterministic, Trees.splitDeterministic]
    exact foldlM_asF asBestF (tryLoc_fin X Y f) _ Best.init
  · simp only [if_true, splitRandom, Trees.splitRandom]
    cases randomValToSplit (r.unif k) X f with
    | error e => rfl
    | ok v =>
      simp only [bind, Except.bind, splitLeftRight_fin]
      cases Trees.splitLeftRight X Y f v with
      | error e => rfl
      | ok q =>
        obtain ⟨l, r⟩ := q
        simp only [Except.map, mse_fin, Trees.mse_eq, pure, Except.pure]
        rfl

theorem tryFeature_fin (r : NodeRnd d) (X : List (Point d)) (Y : List ℝ) (rl : Bool)
    (cur : Best d) (f : Fin d × ℕ) : tryFeature r X (Y.map Flt.fin) rl (asBestF cur) f =
      (Trees.tryFeature r X Y rl cur f).map asBestF := by
  unfold tryFeature Trees.tryFeature
  rw [splitFeature_fin]
  cases Trees.splitFeature r X Y rl f.1 f.2 with
  | error e => rfl
  | ok b =>
    simp only [bind, Except.bind, Except.map, pure, Except.pure]
    have : ∀ b : Best d, (asBestF b).score = b.score := fun _ => rfl
    rw [this, this]
    split_ifs <;> rfl

theorem splitNode_fin (r : NodeRnd d) (X : List (Point d)) (Y : List ℝ) (nf : ℤ) (rl : Bool) :
    splitNode r X (Y.map Flt.fin) nf rl = (Trees.splitNode r X Y nf rl).map asBestF := by
  unfold splitNode Trees.splitNode
  rw [List.length_map]
  by_cases h : X.length = Y.length
  · by_cases h' : X.length > 0
    · simp only [pyAssert, h, h', if_true, bind, Except.bind]
      have h'' : Y.length > 0 := by omega
      simp only [h'', if_true]
      split_ifs
      · rfl
      · exact foldlM_asF asBestF (tryFeature_fin r X Y rl) _ Best.init
    · have h'' : ¬ Y.length > 0 := by omega
      simp [pyAssert, h, h'', bind, Except.bind, Except.map]
  · simp [pyAssert, h, bind, Except.bind, Except.map]

theorem split_fin (rnd : TreeRnd d) (dm sm nf : ℤ) (rl : Bool) :
    ∀ (fuel : ℕ) (path : List Bool) (node : Best d) (c : ℤ), (dm - c).toNat ≤ fuel →
      split rnd path (asBestF node) dm sm nf rl c =
        (Trees.split rnd path node dm sm nf rl c).map asTreeF := by
  intro fuel
  induction fuel with
  | zero =>
    intro path node c hf
    rw [split, Trees.split]
    by_cases hc : c > 0
    · simp only [pyAssert, hc, if_true, bind, Except.bind]
      obtain ⟨score, found⟩ := node
      cases found with
      | none => rfl
      | some q =>
        obtain ⟨f, v, l, r⟩ := q
        simp only [asBestF, Option.map_some, List.map_eq_nil_iff]
        by_cases h1 : l = [] ∨ r = []
        · rw [if_pos h1, if_pos h1]
          simp [Except.map, pure, Except.pure, asTreeF]
          rfl
        rw [if_neg h1, if_neg h1]
        by_cases h2 : c ≥ dm
        · rw [dif_pos h2, dif_pos h2]
          rfl
        · omega
    · simp [pyAssert, hc, bind, Except.bind, Except.map]
  | succ fuel ih =>
    intro path node c hf
    rw [split, Trees.split]
    by_cases hc : c > 0
    · simp only [pyAssert, hc, if_true, bind, Except.bind]
      obtain ⟨score, found⟩ := node
      cases found with
      | none => rfl
      | some q =>
        obtain ⟨f, v, l, r⟩ := q
        simp only [asBestF, Option.map_some, List.map_eq_nil_iff]
        by_cases h1 : l = [] ∨ r = []
        · rw [if_pos h1, if_pos h1]
          simp [Except.map, pure, Except.pure, asTreeF]
          rfl
        rw [if_neg h1, if_neg h1]
        by_cases h2 : c ≥ dm
        · rw [dif_pos h2, dif_pos h2]
          rfl
        rw [dif_neg h2, dif_neg h2]
        have ih' := fun p b => ih p b (c + 1) (by omega)
        simp only [List.length_map, asRowF_fst, asRowF_snd, splitNode_fin, getInputsFromLeaf,
          getOutputsFromLeaf]
        generalize Trees.splitNode (rnd (path ++ [true])) (l.map (·.1)) (l.map (·.2)) nf rl = A
        generalize Trees.splitNode (rnd (path ++ [false])) (r.map (·.1)) (r.map (·.2)) nf rl = B
        by_cases hsl : (l.length : ℤ) ≤ sm <;> by_cases hsr : (r.length : ℤ) ≤ sm <;>
          simp only [hsl, hsr, if_true, if_false]
        · rfl
        · cases B with
          | error e => rfl
          | ok b =>
            simp only [Except.map, ih', pure, Except.pure]
            cases Trees.split rnd (path ++ [false]) b dm sm nf rl (c + 1) <;> rfl
        · cases A with
          | error e => rfl
          | ok a =>
            simp only [Except.map, ih', pure, Except.pure]
            cases Trees.split rnd (path ++ [true]) a dm sm nf rl (c + 1) <;> rfl
        · cases A with
          | error e => rfl
          | ok a =>
            simp only [Except.map, ih', pure, Except.pure]
            cases Trees.split rnd (path ++ [true]) a dm sm nf rl (c + 1) with
            | error e => rfl
            | ok t =>
              cases B with
              | error e => rfl
              | ok b =>
                simp only [ih', Except.map]
                cases Trees.split rnd (path ++ [false]) b dm sm nf rl (c + 1) <;> rfl
    · simp [pyAssert, hc, bind, Except.bind, Except.map]

theorem growTree_fin (rnd : TreeRnd d) (X : List (Point d)) (Y : List ℝ) (dm sm nf : ℤ)
    (rl : Bool) : growTree rnd X (Y.map Flt.fin) dm sm nf rl =
      (Trees.growTree rnd X Y dm sm nf rl).map asTreeF := by
  unfold growTree Trees.growTree
  rw [splitNode_fin]
  cases Trees.splitNode (rnd []) X Y nf rl with
  | error e => rfl
  | ok b => exact split_fin rnd dm sm nf rl _ [] b 1 (_root_.le_refl _)

/-! ### Trees on other responses -/

theorem splitLeftRight_any {X : List (Point d)} {Y : List Flt} (h : X.length = Y.length)
    (f : Fin d) (v : ℝ) : splitLeftRight X Y f v =
      .ok ((X.zip Y).filter (fun p => p.1 f < v), (X.zip Y).filter (fun p => ¬ p.1 f < v)) := by
  simp only [splitLeftRight, pyAssert, h, if_true, bind, Except.bind, pure, Except.pure]
  rw [maskSelect_zip _ _ _ h, maskSelect_zip _ _ _ h]
  simp [not_lt]

theorem mse_nan {X : List (Point d)} {Y : List Flt} (h : X.length = Y.length) {y : Flt}
    (hy : y ∈ Y) (hn : ¬ IsNumber y) (f : Fin d) (v : ℝ) :
    mse ((X.zip Y).filter (fun p => p.1 f < v), (X.zip Y).filter (fun p => ¬ p.1 f < v)) = .nan := by
  have hz : (X.zip Y).map (·.2) = Y := List.map_snd_zip (by omega)
  rw [← hz] at hy
  obtain ⟨p, hp, rfl⟩ := List.mem_map.1 hy
  unfold mse
  dsimp only
  by_cases hv : p.1 f < v
  · rw [mse1_nan (y := p.2) (Y := List.map _ (List.filter (fun p => decide (p.1 f < v)) _))
      (List.mem_map.2 ⟨p, List.mem_filter.2 ⟨hp, by simpa using hv⟩, rfl⟩) hn,
      nan_add]
  · rw [mse1_nan (y := p.2) (Y := List.map _ (List.filter (fun p => decide (¬ p.1 f < v)) _))
      (List.mem_map.2 ⟨p, List.mem_filter.2 ⟨hp, by simpa using hv⟩, rfl⟩) hn,
      add_nan_right]

theorem foldlM_const {α β : Type} {F : β → α → Py β} {b : β} : ∀ (l : List α),
    (∀ a ∈ l, F b a = .ok b) → l.foldlM F b = .ok b
  | [], _ => rfl
  | a :: t, h => by
    rw [List.foldlM_cons, h a (by simp)]
    exact foldlM_const t fun x hx => h x (by simp [hx])

theorem splitNode_nan {r : NodeRnd d} (hr : NodeRndOk r) {X : List (Point d)} {Y : List Flt}
    (hX : X ≠ []) (hl : X.length = Y.length) {nf : ℤ} (h0 : 0 ≤ nf) (hd : nf ≤ d) (rl : Bool)
    {y : Flt} (hy : y ∈ Y) (hn : ¬ IsNumber y) : splitNode r X Y nf rl = .ok BestF.init := by
  have hpos : 0 < Y.length := hl ▸ List.length_pos_iff.2 hX
  have hcond : ¬ (nf < 0 ∨ nf > d) := by omega
  simp only [splitNode, pyAssert, hl, gt_iff_lt, hpos, if_true, bind, Except.bind, hcond, if_false]
  refine foldlM_const _ fun q _ => ?_
  suffices h : ∃ b, splitFeature r X Y rl q.1 q.2 = .ok b ∧ ¬ b.score < Flt.pinf by
    obtain ⟨b, hb, hs⟩ := h
    simp only [tryFeature, hb, bind, Except.bind]
    rw [if_neg (show ¬ b.score < BestF.init.score from hs)]
    rfl
  cases rl
  · refine ⟨BestF.init, ?_, by simp [BestF.init]⟩
    simp only [splitFeature, splitDeterministic, Bool.false_eq_true, if_false]
    refine foldlM_const _ fun i hi => ?_
    obtain ⟨v, hv⟩ : ∃ v, valToSplit X q.1 i = .ok v := by
      have hc : candidatesLoc X q.1 = levels X q.1 := rfl
      by_cases h : (levels X q.1).length > 1
      · simp only [hc, h, if_true] at hi
        exact ⟨_, valToSplit_many h (hr.locs_lt _ _ _ (by omega) i hi)⟩
      · exact ⟨_, valToSplit_one hX h i⟩
    simp only [tryLoc, hv, splitLeftRight_any hl, bind, Except.bind, mse_nan hl hy hn]
    rw [if_neg (by simp)]
    rfl
  · obtain ⟨v, hv⟩ : ∃ v, randomValToSplit (r.unif q.2) X q.1 = .ok v := by
      unfold randomValToSplit
      obtain ⟨x, X', rfl⟩ := List.exists_cons_of_ne_nil hX
      dsimp only
      split_ifs
      · exact ⟨_, rfl⟩
      · exact ⟨_, rfl⟩
    refine ⟨{ score := .nan, found := some (q.1, v, (X.zip Y).filter (fun p => p.1 q.1 < v),
      (X.zip Y).filter (fun p => ¬ p.1 q.1 < v)) }, ?_, by simp⟩
    simp only [splitFeature, splitRandom, if_true, hv, bind, Except.bind, splitLeftRight_any hl,
      mse_nan hl hy hn]
    rfl

theorem growTree_nan {rnd : TreeRnd d} (hr : TreeRndOk rnd) {X : List (Point d)} {Y : List Flt}
    (hX : X ≠ []) (hl : X.length = Y.length) {nf : ℤ} (h0 : 0 ≤ nf) (hd : nf ≤ d) (dm sm : ℤ)
    (rl : Bool) {y : Flt} (hy : y ∈ Y) (hn : ¬ IsNumber y) :
    growTree rnd X Y dm sm nf rl = .error .type := by
  simp only [growTree, splitNode_nan (hr []) hX hl h0 hd rl hy hn, bind, Except.bind]
  rw [split]
  simp [pyAssert, BestF.init, bind, Except.bind]

theorem all_numbers {Y : List Flt} (h : ∀ y ∈ Y, IsNumber y) : ∃ Z : List ℝ, Y = Z.map Flt.fin := by
  induction Y with
  | nil => exact ⟨[], rfl⟩
  | cons a t ih =>
    obtain ⟨Z, rfl⟩ := ih fun y hy => h y (by simp [hy])
    obtain ⟨x, rfl⟩ := h a (by simp)
    exact ⟨x :: Z, rfl⟩

/-! ### Normalisation -/

theorem foldl_nan_keep {r : Flt → Flt → Prop} [∀ a b, Decidable (r a b)] : ∀ t : List Flt,
    t.foldl (fun m y => if m = .nan then m else if y = .nan ∨ r m y then y else m) .nan = .nan
  | [] => rfl
  | b :: t => by
    rw [List.foldl_cons, if_pos rfl]
    exact foldl_nan_keep t

theorem foldl_nan {r : Flt → Flt → Prop} [∀ a b, Decidable (r a b)] : ∀ (t : List Flt) (a : Flt),
    .nan ∈ t →
    t.foldl (fun m y => if m = .nan then m else if y = .nan ∨ r m y then y else m) a = .nan
  | b :: t, a, h => by
    rw [List.foldl_cons]
    by_cases ha : a = .nan
    · rw [if_pos ha, ha]
      exact foldl_nan_keep t
    · rw [if_neg ha]
      rcases List.mem_cons.1 h with rfl | h
      · rw [if_pos (.inl rfl)]
        exact foldl_nan_keep t
      · exact foldl_nan t _ h

theorem foldl_ext_mem {r : Flt → Flt → Prop} [∀ a b, Decidable (r a b)] : ∀ (t : List Flt)
    (a : Flt), a ≠ .nan → .nan ∉ t →
    (t.foldl (fun m y => if m = .nan then m else if y = .nan ∨ r m y then y else m) a) ∈ a :: t
  | [], a, _, _ => by simp
  | b :: t, a, ha, h => by
    have hb : b ≠ .nan := fun e => h (by simp [e])
    have ht : Flt.nan ∉ t := fun e => h (by simp [e])
    rw [List.foldl_cons, if_neg ha]
    by_cases hr : b = .nan ∨ r a b
    · rw [if_pos hr]
      have := foldl_ext_mem (r := r) t b hb ht
      simp only [List.mem_cons] at this ⊢
      tauto
    · rw [if_neg hr]
      have := foldl_ext_mem (r := r) t a ha ht
      simp only [List.mem_cons] at this ⊢
      tauto

/-- What the scan for an extremum returns: an entry that no entry exceeds. -/
theorem foldl_ext_bound {r : Flt → Flt → Prop} [∀ a b, Decidable (r a b)]
    (htr : ∀ m b a, m ≠ .nan → a ≠ .nan → b ≠ .nan → r m a → ¬ r b a → r m b)
    (hirr : ∀ a, ¬ r a a) (hasy : ∀ a b, r a b → ¬ r b a) :
    ∀ (t : List Flt) (a : Flt), a ≠ .nan → .nan ∉ t → ∀ y ∈ a :: t,
    ¬ r (t.foldl (fun m y => if m = .nan then m else if y = .nan ∨ r m y then y else m) a) y
  | [], a, _, _, y, hy => by
    rw [List.mem_singleton.1 hy]
    exact hirr a
  | b :: t, a, ha, h, y, hy => by
    have hb : b ≠ .nan := fun e => h (by simp [e])
    have ht : Flt.nan ∉ t := fun e => h (by simp [e])
    rw [List.foldl_cons, if_neg ha]
    have hc : (if b = .nan ∨ r a b then b else a) ≠ .nan := by split <;> assumption
    have key := foldl_ext_bound htr hirr hasy t _ hc ht
    have hm := foldl_ext_mem (r := r) t _ hc ht
    generalize t.foldl (fun m y => if m = .nan then m else if y = .nan ∨ r m y then y else m)
      (if b = .nan ∨ r a b then b else a) = m at key hm ⊢
    have hmn : m ≠ .nan := by
      rintro rfl
      rcases List.mem_cons.1 hm with h | h
      · exact hc h.symm
      · exact ht h
    have hc1 : ¬ r (if b = .nan ∨ r a b then b else a) a := by
      split
      · next h => exact hasy _ _ (h.resolve_left hb)
      · exact hirr a
    have hc2 : ¬ r (if b = .nan ∨ r a b then b else a) b := by
      split
      · exact hirr b
      · next h => exact fun e => h (.inr e)
    simp only [List.mem_cons] at hy
    rcases hy with rfl | rfl | hy
    · exact fun e => key _ (by simp) (htr _ _ _ hmn ha hc e hc1)
    · exact fun e => key _ (by simp) (htr _ _ _ hmn hb hc e hc2)
    · exact key y (by simp [hy])

theorem flt_negtrans (m b a : Flt) (hm : m ≠ .nan) (ha : a ≠ .nan) (hb : b ≠ .nan) (h : m < a)
    (h' : ¬ b < a) : m < b := by
  cases m <;> cases b <;> cases a <;> simp_all
  linarith

theorem flt_irrefl (a : Flt) : ¬ a < a := by
  cases a <;> simp

theorem flt_asymm (a b : Flt) (h : a < b) : ¬ b < a := by
  cases a <;> cases b <;> simp_all
  linarith

theorem npMax_nan {Y : List Flt} (h : .nan ∈ Y) : npMax Y = .ok .nan := by
  cases Y with
  | nil => simp at h
  | cons a t =>
    rcases List.mem_cons.1 h with rfl | h
    · exact congrArg Except.ok (foldl_nan_keep (r := fun m y => m < y) t)
    · exact congrArg Except.ok (foldl_nan (r := fun m y => m < y) t a h)

theorem npMin_nan {Y : List Flt} (h : .nan ∈ Y) : npMin Y = .ok .nan := by
  cases Y with
  | nil => simp at h
  | cons a t =>
    rcases List.mem_cons.1 h with rfl | h
    · exact congrArg Except.ok (foldl_nan_keep (r := fun m y => y < m) t)
    · exact congrArg Except.ok (foldl_nan (r := fun m y => y < m) t a h)

theorem npMax_top {Y : List Flt} (hY : Y ≠ []) (h : .nan ∉ Y) :
    ∃ m, npMax Y = .ok m ∧ m ∈ Y ∧ ∀ y ∈ Y, ¬ m < y := by
  cases Y with
  | nil => simp at hY
  | cons a t =>
    have ha : a ≠ .nan := fun e => h (by simp [e])
    have ht : Flt.nan ∉ t := fun e => h (by simp [e])
    exact ⟨_, rfl, foldl_ext_mem t a ha ht, foldl_ext_bound flt_negtrans flt_irrefl flt_asymm t a ha ht⟩

theorem npMin_bottom {Y : List Flt} (hY : Y ≠ []) (h : .nan ∉ Y) :
    ∃ m, npMin Y = .ok m ∧ m ∈ Y ∧ ∀ y ∈ Y, ¬ y < m := by
  cases Y with
  | nil => simp at hY
  | cons a t =>
    have ha : a ≠ .nan := fun e => h (by simp [e])
    have ht : Flt.nan ∉ t := fun e => h (by simp [e])
    refine ⟨_, rfl, foldl_ext_mem (r := fun m y => y < m) t a ha ht,
      foldl_ext_bound (r := fun m y => y < m) ?_ flt_irrefl (fun a b h => flt_asymm b a h) t a ha ht⟩
    intro m b a hm ha hb h h'
    by_contra hn
    exact hn (by
      cases m <;> cases b <;> cases a <;> simp_all
      linarith)

/-- On numbers, the normalisation of `UtilsBo`. -/
theorem normalize_fin (Y : List ℝ) : normalizeMinMax (Y.map Flt.fin) =
    (UtilsBo.normalizeMinMax Y).map (List.map Flt.fin) := by
  rcases eq_or_ne Y [] with rfl | hY
  · rfl
  have hn : Flt.nan ∉ Y.map Flt.fin := by simp
  have hY' : Y.map Flt.fin ≠ [] := by simpa using hY
  obtain ⟨m, h1, hm, hb⟩ := npMax_top hY' hn
  obtain ⟨m', h2, hm', hb'⟩ := npMin_bottom hY' hn
  obtain ⟨x, hx, rfl⟩ := List.mem_map.1 hm
  obtain ⟨x', hx', rfl⟩ := List.mem_map.1 hm'
  have g1 : Verif.npMax Y = .ok x := npMax_ok.2 ⟨hx, fun y hy => by
    simpa using hb (.fin y) (List.mem_map_of_mem hy)⟩
  have g2 : Verif.npMin Y = .ok x' := npMin_ok.2 ⟨hx', fun y hy => by
    simpa using hb' (.fin y) (List.mem_map_of_mem hy)⟩
  unfold normalizeMinMax UtilsBo.normalizeMinMax
  rw [h1, h2, g1, g2]
  simp only [bind, Except.bind, pure, Except.pure]
  by_cases hxx : x = x'
  · subst hxx
    simp [Except.map]
  · rw [if_pos (.inl (by simpa using hxx)), if_pos hxx]
    have : x - x' ≠ 0 := sub_ne_zero.2 hxx
    simp only [Except.map, List.map_map]
    congr 1
    refine List.map_congr_left fun y _ => ?_
    simp [Flt.sub, Flt.neg, Flt.add, div, mulPos, ← sub_eq_add_neg, this]

/-- With a NaN among the responses all become NaN. -/
theorem normalize_nan {Y : List Flt} (h : .nan ∈ Y) :
    normalizeMinMax Y = .ok (Y.map fun _ => .nan) := by
  unfold normalizeMinMax
  rw [npMax_nan h, npMin_nan h]
  simp only [bind, Except.bind, pure, Except.pure, or_true, if_true]
  congr 1
  refine List.map_congr_left fun y _ => ?_
  cases y <;> rfl

theorem flt_bot {a : Flt} (h : ¬ .ninf < a) (hn : a ≠ .nan) : a = .ninf := by
  cases a <;> simp_all

theorem flt_top {a : Flt} (h : ¬ a < .pinf) (hn : a ≠ .nan) : a = .pinf := by
  cases a <;> simp_all

/-- With −∞ and anything else among the responses all become NaN. -/
theorem normalize_ninf {Y : List Flt} (h : .ninf ∈ Y) {z : Flt} (hz : z ∈ Y) (hz' : z ≠ .ninf) :
    normalizeMinMax Y = .ok (Y.map fun _ => .nan) := by
  by_cases hn : .nan ∈ Y
  · exact normalize_nan hn
  have hY : Y ≠ [] := List.ne_nil_of_mem h
  obtain ⟨m, h1, hm, hb⟩ := npMax_top hY hn
  obtain ⟨m', h2, hm', hb'⟩ := npMin_bottom hY hn
  have e2 : m' = .ninf := flt_bot (hb' _ h) fun e => hn (e ▸ hm')
  have e1 : m ≠ .ninf := by
    rintro rfl
    exact hz' (flt_bot (hb _ hz) fun e => hn (e ▸ hz))
  have e3 : m ≠ .nan := fun e => hn (e ▸ hm)
  subst e2
  unfold normalizeMinMax
  rw [h1, h2]
  simp only [bind, Except.bind, pure, Except.pure]
  rw [if_pos (.inl e1)]
  congr 1
  refine List.map_congr_left fun y _ => ?_
  cases m <;> cases y <;> simp_all [Flt.sub, Flt.neg, Flt.add, div, mulPos]

/-- With +∞ and numbers, but no NaN or −∞, the numbers become 0 and the infinities NaN. -/
theorem normalize_pinf {Y : List Flt} (h : .pinf ∈ Y) {z : ℝ} (hz : .fin z ∈ Y)
    (hn : .nan ∉ Y) (hm0 : .ninf ∉ Y) :
    normalizeMinMax Y = .ok (Y.map fun y => if y = .pinf then .nan else .fin 0) := by
  have hY : Y ≠ [] := List.ne_nil_of_mem h
  obtain ⟨m, h1, hm, hb⟩ := npMax_top hY hn
  obtain ⟨m', h2, hm', hb'⟩ := npMin_bottom hY hn
  have e1 : m = .pinf := flt_top (hb _ h) fun e => hn (e ▸ hm)
  have e2 : ∃ x, m' = .fin x := by
    have := hb' _ hz
    cases m' with
    | fin x => exact ⟨x, rfl⟩
    | pinf => simp at this
    | ninf => exact absurd hm' hm0
    | nan => exact absurd hm' hn
  obtain ⟨x, rfl⟩ := e2
  subst e1
  unfold normalizeMinMax
  rw [h1, h2]
  simp only [bind, Except.bind, pure, Except.pure]
  rw [if_pos (.inl (by simp))]
  congr 1
  refine List.map_congr_left fun y hy => ?_
  cases y <;> simp_all [Flt.sub, Flt.neg, Flt.add, div, mulPos]

/-- Responses that are all the same stay as they are, if that is not NaN. -/
theorem normalize_same {Y : List Flt} (hY : Y ≠ []) {z : Flt} (h : ∀ y ∈ Y, y = z)
    (hz : z ≠ .nan) : normalizeMinMax Y = .ok Y := by
  have hn : .nan ∉ Y := fun e => hz (h _ e).symm
  obtain ⟨m, h1, hm, hb⟩ := npMax_top hY hn
  obtain ⟨m', h2, hm', hb'⟩ := npMin_bottom hY hn
  unfold normalizeMinMax
  rw [h1, h2]
  simp only [bind, Except.bind, pure, Except.pure]
  rw [if_neg]
  simp [h m hm, h m' hm', hz]

/-! ### Forests -/

theorem takeRows_mem {α : Type _} {X : List α} : ∀ {idx : List ℕ}, (∀ i ∈ idx, i < X.length) →
    ∃ X', takeRows X idx = .ok X' ∧ X'.length = idx.length ∧
      ∀ y, y ∈ X' ↔ ∃ i ∈ idx, X[i]? = some y
  | [], _ => ⟨[], rfl, rfl, by simp⟩
  | a :: t, h => by
    obtain ⟨X', h1, h2, h3⟩ := takeRows_mem (X := X) (idx := t) (fun i hi => h i (by simp [hi]))
    have ha : a < X.length := h a (by simp)
    refine ⟨X[a] :: X', ?_, by simp [h2], fun y => ?_⟩
    · unfold takeRows at h1 ⊢
      rw [List.mapM_cons, h1]
      simp [pyIndex, ha, bind, Except.bind, pure, Except.pure]
    · simp [h3, ha, eq_comm]

theorem mapM_error_iff {α β : Type} {g : α → Py β} {e : PyErr} : ∀ {l : List α},
    (∀ a ∈ l, (∃ b, g a = .ok b) ∨ g a = .error e) →
    (l.mapM g = .error e ↔ ∃ a ∈ l, g a = .error e) ∧
      ((∀ a ∈ l, g a ≠ .error e) → ∃ bs, l.mapM g = .ok bs ∧ bs.length = l.length)
  | [], _ => ⟨by simp [pure, Except.pure], fun _ => ⟨[], rfl, rfl⟩⟩
  | a :: t, h => by
    obtain ⟨h1, h2⟩ := mapM_error_iff (l := t) (g := g) (e := e) fun x hx => h x (by simp [hx])
    rcases h a (by simp) with ⟨b, hb⟩ | hb
    · constructor
      · rw [List.mapM_cons, hb]
        simp only [List.mem_cons, exists_eq_or_imp, hb, reduceCtorEq, false_or]
        rw [← h1]
        cases t.mapM g <;> simp [bind, Except.bind, pure, Except.pure]
      · intro hne
        obtain ⟨bs, hbs, hl⟩ := h2 fun x hx => hne x (by simp [hx])
        exact ⟨b :: bs, by rw [List.mapM_cons, hb, hbs]; rfl, by simp [hl]⟩
    · refine ⟨⟨fun _ => ⟨a, by simp, hb⟩, fun _ => by rw [List.mapM_cons, hb]; rfl⟩, ?_⟩
      intro hne
      exact absurd hb (hne a (by simp))

/-- A tree on a sample: grown if all responses of the sample are finite, `TypeError` otherwise. -/
theorem sample_tree {choice : ℕ → ℕ → List ℕ} {replace : Bool} (hc : SampleOk choice replace)
    {rnd : TreeRnd d} (hr : TreeRndOk rnd) {X : List (Point d)} {Y : List Flt}
    (hl : X.length = Y.length) (hX : X ≠ []) {ratio : ℝ} (h0 : 0 < ratio)
    (h1 : replace = false → ratio ≤ 1) (hk : 1 ≤ (X.length : ℝ) * ratio) {nf : ℤ} (hn1 : 1 ≤ nf)
    (hnd : nf ≤ d) (dm sm : ℤ) (rl : Bool) :
    let T : Py (TreeF d) := do
      let (X_, Y_) ← subsample choice X Y ratio replace
      growTree rnd X_ Y_ dm sm nf rl
    let bad := ∃ i ∈ choice X.length ⌊(X.length : ℝ) * ratio⌋₊, ∃ y, Y[i]? = some y ∧ ¬ IsNumber y
    (bad → T = .error .type) ∧ (¬ bad → ∃ t, T = .ok t) := by
  have hpos : 0 < X.length := List.length_pos_iff.2 hX
  have hk' : 1 ≤ ⌊(X.length : ℝ) * ratio⌋₊ := Nat.le_floor (by simpa using hk)
  have hkle : replace = false → ⌊(X.length : ℝ) * ratio⌋₊ ≤ X.length := by
    intro hr
    refine Nat.floor_le_of_le ?_
    have : (0 : ℝ) ≤ X.length := Nat.cast_nonneg _
    nlinarith [h1 hr]
  obtain ⟨X', a1, a2, a3⟩ := takeRows_mem (X := X) (hc.lt _ _ hpos hkle)
  obtain ⟨Y', b1, b2, b3⟩ := takeRows_mem (X := Y) (fun i hi => hl ▸ hc.lt _ _ hpos hkle i hi)
  have hlen := hc.length _ _ hpos hkle
  have hs : subsample choice X Y ratio replace = .ok (X', Y') := by
    have hcond : ¬ ((X.length = 0 ∧ ⌊(X.length : ℝ) * ratio⌋₊ > 0) ∨
        (replace = false ∧ ⌊(X.length : ℝ) * ratio⌋₊ > X.length)) := by
      rintro (⟨h, -⟩ | ⟨h, h'⟩)
      · omega
      · have := hkle h
        omega
    have hp : (if replace then pyAssert (ratio > 0) else pyAssert (0 < ratio ∧ ratio ≤ 1) :
        Py Unit) = .ok () := by
      cases replace
      · simp [pyAssert, h0, h1 rfl]
      · simp [pyAssert, h0]
    simp only [subsample]
    rw [show pyAssert (X.length = Y.length) = .ok () by simp [pyAssert, hl]]
    simp only [bind, Except.bind] at hp ⊢
    cases replace
    · simp only [Bool.false_eq_true, if_false] at hp ⊢
      rw [hp]
      simp only [hcond, Bool.false_eq_true, if_false, a1, b1] at hcond ⊢
      rw [if_neg (by simpa using hcond)]
      rfl
    · simp only [if_true] at hp ⊢
      rw [hp]
      simp only [a1, b1]
      rw [if_neg (by simpa using hcond)]
      rfl
  have hX' : X' ≠ [] := by
    rintro rfl
    rw [List.length_nil] at a2
    omega
  have hXY' : X'.length = Y'.length := by omega
  simp only [hs, bind, Except.bind]
  constructor
  · rintro ⟨i, hi, y, hy, hn⟩
    exact growTree_nan hr hX' hXY' (by omega) hnd dm sm rl ((b3 y).2 ⟨i, hi, hy⟩) hn
  · intro hbad
    obtain ⟨Z, rfl⟩ := all_numbers (Y := Y') fun y hy => by
      obtain ⟨i, hi, hiy⟩ := (b3 y).1 hy
      by_contra hn
      exact hbad ⟨i, hi, y, hiy, hn⟩
    rw [List.length_map] at hXY'
    obtain ⟨t, ht, -⟩ := growTree_grown hr hn1 hnd dm sm rl hX' hXY'
    exact ⟨asTreeF t, by rw [growTree_fin, ht]; rfl⟩

theorem subsample_fin (choice : ℕ → ℕ → List ℕ) (X : List (Point d)) (Y : List ℝ) (ratio : ℝ)
    (replace : Bool) : subsample choice X (Y.map Flt.fin) ratio replace =
      (Trees.subsample choice X Y ratio replace).map fun q => (q.1, q.2.map Flt.fin) := by
  have ht : ∀ idx : List ℕ, takeRows (Y.map Flt.fin) idx = (takeRows Y idx).map (List.map Flt.fin) := by
    intro idx
    induction idx with
    | nil => rfl
    | cons a t ih =>
      unfold takeRows at ih ⊢
      rw [List.mapM_cons, List.mapM_cons, ih]
      have : pyIndex (Y.map Flt.fin) a = (pyIndex Y a).map Flt.fin := by
        unfold pyIndex
        rw [List.getElem?_map]
        cases Y[a]? <;> rfl
      rw [this]
      cases pyIndex Y a with
      | error e => rfl
      | ok v => cases (t.mapM fun i => pyIndex Y i) <;> rfl
  have hrest : (if (X.length = 0 ∧ ⌊(X.length : ℝ) * ratio⌋₊ > 0) ∨
        (replace = false ∧ ⌊(X.length : ℝ) * ratio⌋₊ > X.length) then
        (Except.error PyErr.value : Py (List (Point d) × List Flt)) else do
        let X_ ← takeRows X (choice X.length ⌊(X.length : ℝ) * ratio⌋₊)
        let Y_ ← takeRows (Y.map Flt.fin) (choice X.length ⌊(X.length : ℝ) * ratio⌋₊)
        return (X_, Y_)) = ((if (X.length = 0 ∧ ⌊(X.length : ℝ) * ratio⌋₊ > 0) ∨
        (replace = false ∧ ⌊(X.length : ℝ) * ratio⌋₊ > X.length) then
        (Except.error PyErr.value : Py (List (Point d) × List ℝ)) else do
        let X_ ← takeRows X (choice X.length ⌊(X.length : ℝ) * ratio⌋₊)
        let Y_ ← takeRows Y (choice X.length ⌊(X.length : ℝ) * ratio⌋₊)
        return (X_, Y_))).map fun q => (q.1, q.2.map Flt.fin) := by
    split
    · rfl
    · rw [ht]
      cases takeRows X (choice X.length ⌊(X.length : ℝ) * ratio⌋₊) with
      | error e => rfl
      | ok a => cases takeRows Y (choice X.length ⌊(X.length : ℝ) * ratio⌋₊) <;> rfl
  unfold subsample Trees.subsample
  rw [List.length_map]
  by_cases h : X.length = Y.length
  · rw [show pyAssert (X.length = Y.length) = .ok () by simp [pyAssert, h]]
    cases replace
    · by_cases h' : 0 < ratio ∧ ratio ≤ 1
      · rw [show pyAssert (0 < ratio ∧ ratio ≤ 1) = .ok () by simp [pyAssert, h']]
        exact hrest
      · rw [show pyAssert (0 < ratio ∧ ratio ≤ 1) = .error .assertion by simp only [pyAssert, h', if_false]]
        rfl
    · by_cases h' : ratio > 0
      · rw [show pyAssert (ratio > 0) = .ok () by simp only [pyAssert, h', if_true]]
        exact hrest
      · rw [show pyAssert (ratio > 0) = .error .assertion by simp only [pyAssert, h', if_false]]
        rfl
  · rw [show pyAssert (X.length = Y.length) = .error .assertion by simp only [pyAssert, h, if_false]]
    rfl

theorem mapM_asF {α β γ : Type} {f : α → Py β} {g : α → Py γ} (c : β → γ)
    (h : ∀ a, g a = (f a).map c) : ∀ l : List α, l.mapM g = (l.mapM f).map (List.map c)
  | [] => rfl
  | a :: t => by
    rw [List.mapM_cons, List.mapM_cons, h, mapM_asF c h t]
    cases f a with
    | error e => rfl
    | ok b => cases t.mapM f <;> rfl

theorem generic_fin (rnd : ForestRnd d) (X : List (Point d)) (Y : List ℝ)
    (num dm sm : ℤ) (ratio : ℝ) (replace : Bool) (nf : ℤ) (rl : Bool) :
    getGenericTrees rnd X (Y.map Flt.fin) num dm sm ratio replace nf rl =
      (Trees.getGenericTrees rnd X Y num dm sm ratio replace nf rl).map (List.map asTreeF) := by
  have hm := mapM_asF (f := fun k => do
      let (X_, Y_) ← Trees.subsample (rnd.sample k) X Y ratio replace
      Trees.growTree (rnd.tree k) X_ Y_ dm sm nf rl) (g := fun k => do
      let (X_, Y_) ← subsample (rnd.sample k) X (Y.map Flt.fin) ratio replace
      growTree (rnd.tree k) X_ Y_ dm sm nf rl) asTreeF (fun k => by
        rw [subsample_fin]
        cases Trees.subsample (rnd.sample k) X Y ratio replace with
        | error e => rfl
        | ok q =>
          simp only [Except.map, bind, Except.bind]
          exact growTree_fin _ _ _ _ _ _ _) (List.range num.toNat)
  unfold getGenericTrees Trees.getGenericTrees
  rw [List.length_map, hm]
  by_cases h : X.length = Y.length
  · cases replace
    · by_cases h' : 0 < ratio ∧ ratio ≤ 1 <;> simp [pyAssert, h, h', bind, Except.bind, Except.map]
    · by_cases h' : 0 < ratio <;> simp [pyAssert, h, h', bind, Except.bind, Except.map]
  · simp [pyAssert, h, bind, Except.bind, Except.map]

theorem forest_generic (rnd : ForestRnd d) (X : List (Point d)) (Y : List Flt)
    (num dm sm nf : ℤ) : getRandomForest rnd X Y num dm sm nf =
      getGenericTrees rnd X Y num dm sm 1 true nf false := by
  simp [getRandomForest, getGenericTrees, pyAssert, bind, Except.bind]

theorem forest_generic' (rnd : ForestRnd d) (X : List (Point d)) (Y : List ℝ)
    (num dm sm nf : ℤ) : Trees.getRandomForest rnd X Y num dm sm nf =
      Trees.getGenericTrees rnd X Y num dm sm 1 true nf false := by
  simp [Trees.getRandomForest, Trees.getGenericTrees, pyAssert, bind, Except.bind]

end Verif.NonFinite
