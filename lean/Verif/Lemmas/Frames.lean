import Verif.Spec.Frames
import Mathlib.Algebra.Order.Field.Basic
import Mathlib.Tactic.Ring
import Mathlib.Tactic.FieldSimp
import Mathlib.Tactic.Linarith
import Mathlib.Tactic.Positivity

/-! The model in other coordinates of the search space. -/

namespace Verif.Lemmas

open Verif.Spec Verif.Covariance Verif.UtilsCovariance Verif.UtilsCommon Verif.UtilsBo Verif.BaseBo
open Verif.BoCommon Verif.Constants

variable {d : ℕ} (F : Frame d)

theorem frame_inv_pt (x : Point d) : F.inv (F.pt x) = x := by
  funext i
  have := (F.pos i).ne'
  simp only [Frame.inv, Frame.pt]
  field_simp
  ring

theorem frame_boundsInv (B : Bounds d) : F.boundsInv (F.bounds B) = B := by
  funext i
  have := (F.pos i).ne'
  refine Prod.ext ?_ ?_ <;> simp only [Frame.boundsInv, Frame.bounds] <;> field_simp <;> ring

theorem frame_pt_injective : Function.Injective F.pt :=
  fun x y h => by rw [← frame_inv_pt F x, h, frame_inv_pt]

theorem frame_le (i : Fin d) (a b : ℝ) : F.s i * a + F.t i ≤ F.s i * b + F.t i ↔ a ≤ b := by
  have := F.pos i
  constructor
  · intro h
    exact le_of_mul_le_mul_left (by linarith) this
  · intro h
    have := mul_le_mul_of_nonneg_left h this.le
    linarith

/-! ### Samples -/

private theorem map_bind_py {α β γ : Type} (p : Py α) (k : α → Py β) (f : β → γ) :
    (p >>= k).map f = p >>= fun a => (k a).map f := by
  cases p <;> rfl

theorem frame_clip (i : Fin d) (x a b : ℝ) :
    clip (F.s i * x + F.t i) (F.s i * a + F.t i) (F.s i * b + F.t i) = F.s i * clip x a b + F.t i := by
  have hm : Monotone fun x : ℝ => F.s i * x + F.t i := fun x y h => (frame_le F i x y).mpr h
  have h1 : F.s i * max x a + F.t i = max (F.s i * x + F.t i) (F.s i * a + F.t i) :=
    hm.map_max (a := x) (b := a)
  have h2 : F.s i * min (max x a) b + F.t i = min (F.s i * max x a + F.t i) (F.s i * b + F.t i) :=
    hm.map_min (a := max x a) (b := b)
  rw [clip, clip, h2, h1]

theorem frame_uniform (B : Bounds d) (r : Draws d) (n : ℤ) :
    getSamplesUniform (F.bounds B) r n = (getSamplesUniform B r n).map F.pt := by
  simp only [getSamplesUniform, List.map_map]
  refine List.map_congr_left fun i _ => funext fun j => ?_
  simp only [Function.comp_apply, Frame.bounds, Frame.pt]
  ring

theorem frame_gaussian (B : Bounds d) (r : Draws d) (n : ℤ) :
    getSamplesGaussian (F.bounds B) r n = (getSamplesGaussian B r n).map F.pt := by
  simp only [getSamplesGaussian, List.map_map]
  refine List.map_congr_left fun i _ => funext fun j => ?_
  simp only [Function.comp_apply, Frame.bounds, Frame.pt]
  rw [← frame_clip]
  congr 1
  ring

theorem frame_qmc (B : Bounds d) (u : ℕ → Fin d → ℝ) (n : ℤ) :
    getSamplesQmc (F.bounds B) u n = (getSamplesQmc B u n).map (List.map F.pt) := by
  simp only [getSamplesQmc]
  split_ifs
  · rfl
  · simp only [Except.map, List.map_map]
    congr 1
    refine List.map_congr_left fun i _ => funext fun j => ?_
    simp only [Function.comp_apply, Frame.bounds, Frame.pt]
    ring

/-- The changes of the single coordinates. -/
private def coords : List (ℝ → ℝ) := List.ofFn fun i : Fin d => fun x => F.s i * x + F.t i

private theorem cart_moved : ∀ (g : List (ℝ → ℝ)) (axes : List (List ℝ)),
    g.length = axes.length →
    cart (List.zipWith (fun f v => v.map f) g axes) =
      (cart axes).map fun row => List.zipWith (fun f x => f x) g row
  | [], [], _ => rfl
  | f :: g, v :: axes, h => by
    simp only [List.length_cons, Nat.add_right_cancel_iff] at h
    simp only [List.zipWith_cons_cons, cart, cart_moved g axes h, List.flatMap_map, List.map_flatMap,
      List.map_map]
    rfl

private theorem cart_length {α : Type _} : ∀ {axes : List (List α)} {row : List α},
    row ∈ cart axes → row.length = axes.length
  | [], row, h => by simp [cart] at h; simp [h]
  | v :: axes, row, h => by
    simp only [cart, List.mem_flatMap, List.mem_map] at h
    obtain ⟨x, -, row', h', rfl⟩ := h
    simp [cart_length h']

private theorem swap01_length {α : Type _} (l : List α) : (swap01 l).length = l.length := by
  rcases l with _ | ⟨a, _ | ⟨b, t⟩⟩ <;> rfl

private theorem meshgrid_moved (g : List (ℝ → ℝ)) (axes : List (List ℝ))
    (h : g.length = axes.length) :
    meshgridRows (List.zipWith (fun f v => v.map f) g axes) =
      (meshgridRows axes).map (List.map fun row => List.zipWith (fun f x => f x) g row) := by
  rcases axes with _ | ⟨v, _ | ⟨w, axes⟩⟩
  · rw [List.length_nil, List.length_eq_zero_iff] at h
    subst h
    rfl
  · rcases g with _ | ⟨f, _ | ⟨f', g⟩⟩ <;> simp at h
    have := cart_moved [f] [v] rfl
    simp only [List.zipWith_cons_cons, List.zipWith_nil_left] at this ⊢
    simp only [meshgridRows, this, Except.map]
  · rcases g with _ | ⟨f, _ | ⟨f', g⟩⟩ <;> simp at h
    have := cart_moved (f' :: f :: g) (w :: v :: axes) (by simp [h])
    simp only [List.zipWith_cons_cons] at this ⊢
    simp only [meshgridRows, this, Except.map, List.map_map]
    congr 1
    refine List.map_congr_left fun row hrow => ?_
    have hl := cart_length hrow
    rcases row with _ | ⟨a, _ | ⟨b, row⟩⟩ <;> simp at hl
    rfl

private theorem meshgrid_length {α : Type _} {axes : List (List α)} {rows : List (List α)}
    (h : meshgridRows axes = .ok rows) : ∀ row ∈ rows, row.length = axes.length := by
  rcases axes with _ | ⟨v, _ | ⟨w, axes⟩⟩
  · cases h
  · obtain rfl := Except.ok.inj h
    exact fun row hrow => cart_length hrow
  · obtain rfl := Except.ok.inj h
    intro row hrow
    obtain ⟨r, hr, rfl⟩ := List.mem_map.1 hrow
    rw [swap01_length, cart_length hr]
    rfl

private theorem linspaceNat_moved (s t a b : ℝ) : ∀ n : ℕ,
    linspaceNat (s * a + t) (s * b + t) n = (linspaceNat a b n).map fun x => s * x + t
  | 0 => rfl
  | 1 => rfl
  | n + 2 => by
    simp only [linspaceNat, List.map_append, List.map_map, List.map_cons, List.map_nil]
    congr 1
    refine List.map_congr_left fun i _ => ?_
    simp only [Function.comp_apply]
    ring

private theorem linspace_moved (s t a b : ℝ) (n : ℤ) :
    linspace (s * a + t) (s * b + t) n = (linspace a b n).map (List.map fun x => s * x + t) := by
  simp only [linspace, linspaceNat_moved]
  split_ifs <;> rfl

private theorem mapM_moved (n : ℤ) : ∀ (g : List (ℝ × ℝ)) (B : List (ℝ × ℝ)), g.length = B.length →
    (List.zipWith (fun (c : ℝ × ℝ) (r : ℝ × ℝ) => (c.1 * r.1 + c.2, c.1 * r.2 + c.2)) g B).mapM
        (fun r => linspace r.1 r.2 n) =
      (B.mapM fun r => linspace r.1 r.2 n).map fun axes =>
        List.zipWith (fun f v => v.map f) (g.map fun c x => c.1 * x + c.2) axes
  | [], [], _ => rfl
  | c :: g, r :: B, h => by
    simp only [List.length_cons, Nat.add_right_cancel_iff] at h
    simp only [List.zipWith_cons_cons, List.mapM_cons, mapM_moved n g B h, linspace_moved]
    rcases linspace r.1 r.2 n with e | v
    · rfl
    · rcases hm : B.mapM fun r => linspace r.1 r.2 n with e | v <;> rw [hm] <;> rfl

private theorem rowsToPoints_moved : ∀ {rows : List (List ℝ)}, (∀ row ∈ rows, row.length = d) →
    rowsToPoints d (rows.map fun row => List.zipWith (fun f x => f x) (coords F) row) =
      (rowsToPoints d rows).map (List.map F.pt)
  | [], _ => rfl
  | row :: rows, h => by
    have h1 : row.length = d := h row (by simp)
    have h2 : (List.zipWith (fun f x => f x) (coords F) row).length = d := by simp [coords, h1]
    simp only [List.map_cons, rowsToPoints, h1, h2, dif_pos,
      rowsToPoints_moved fun r hr => h r (List.mem_cons_of_mem _ hr)]
    rcases rowsToPoints d rows with e | v
    · rfl
    · simp only [bind, Except.bind, Except.map, pure, Except.pure, List.map_cons]
      congr 2
      funext j
      simp [coords, Frame.pt]

private theorem ofFn_zip (B : Bounds d) : List.ofFn (F.bounds B) =
    List.zipWith (fun (c : ℝ × ℝ) (r : ℝ × ℝ) => (c.1 * r.1 + c.2, c.1 * r.2 + c.2))
      (List.ofFn fun i => (F.s i, F.t i)) (List.ofFn B) := by
  refine List.ext_getElem (by simp) fun i h1 h2 => ?_
  simp [Frame.bounds]

private theorem axes_length {n : ℤ} : ∀ {ranges : List (ℝ × ℝ)} {axes : List (List ℝ)},
    (ranges.mapM fun r => linspace r.1 r.2 n) = .ok axes → axes.length = ranges.length
  | [], axes, h => by cases h; rfl
  | r :: rs, axes, h => by
    simp only [List.mapM_cons, bind, Except.bind] at h
    rcases h1 : linspace r.1 r.2 n with e | v
    · rw [h1] at h; cases h
    · rw [h1] at h
      rcases h2 : rs.mapM fun r => linspace r.1 r.2 n with e | vs
      · simp only [h2] at h; cases h
      · simp only [h2, pure, Except.pure] at h
        obtain rfl := Except.ok.inj h
        simp [axes_length h2]

private theorem getGrids_length {ranges : List (ℝ × ℝ)} {n : ℤ} {rows : List (List ℝ)}
    (h : getGrids ranges n = .ok rows) : ∀ row ∈ rows, row.length = ranges.length := by
  simp only [getGrids, pyAssert] at h
  split_ifs at h
  · simp only [bind, Except.bind] at h
    rcases hm : ranges.mapM fun r => linspace r.1 r.2 n with e | axes
    · rw [hm] at h; cases h
    · rw [hm] at h
      have hl := axes_length hm
      intro row hrow
      rw [meshgrid_length h row hrow, hl]
  · simp [bind, Except.bind] at h

theorem frame_grid (B : Bounds d) (n : ℤ) :
    getSamplesGrid (F.bounds B) n = (getSamplesGrid B n).map (List.map F.pt) := by
  have hg : getGrids (List.ofFn (F.bounds B)) n = (getGrids (List.ofFn B) n).map
      (List.map fun row => List.zipWith (fun f x => f x) (coords F) row) := by
    have hord : (∀ r ∈ List.ofFn (F.bounds B), r.1 ≤ r.2) ↔ ∀ r ∈ List.ofFn B, r.1 ≤ r.2 := by
      simp only [List.mem_ofFn, Set.mem_range, forall_exists_index, forall_apply_eq_imp_iff]
      refine forall_congr' fun i => ?_
      exact frame_le F i _ _
    simp only [getGrids, hord, map_bind_py]
    congr 1
    funext _
    have hc : (List.ofFn fun i => (F.s i, F.t i)).map (fun c x => c.1 * x + c.2) = coords F := by
      simp [coords, List.map_ofFn, Function.comp_def]
    rw [ofFn_zip, mapM_moved n _ _ (by simp), hc]
    rcases hm : (List.ofFn B).mapM fun r => linspace r.1 r.2 n with e | axes
    · rw [hm]; rfl
    · rw [hm]
      have hl : axes.length = d := by
        have := axes_length hm
        simpa using this
      exact meshgrid_moved (coords F) axes (by simp [coords, hl])
  simp only [getSamplesGrid, hg]
  rcases hr : getGrids (List.ofFn B) n with e | rows
  · rfl
  · exact rowsToPoints_moved F fun row hrow => by
      have := getGrids_length hr row hrow
      simpa using this

theorem frame_samples (B : Bounds d) (r : Draws d) (sm : String) (n : ℤ) :
    getSamples (F.bounds B) r sm n = (getSamples B r sm n).map (List.map F.pt) := by
  simp only [getSamples, map_bind_py]
  congr 1
  funext _
  split_ifs
  · exact frame_grid F B n
  · simp only [frame_uniform]; rfl
  · simp only [frame_gaussian]; rfl
  · exact frame_qmc F B _ n
  · exact frame_qmc F B _ n
  · rfl

theorem frame_inBounds (pts : List (Point d)) (B : Bounds d) :
    checkPointsInBounds (pts.map F.pt) (F.bounds B) =
      (checkPointsInBounds pts B).map (List.map F.pt) := by
  have h1 : (∀ p ∈ pts.map F.pt, ∀ i, (F.bounds B i).1 ≤ p i) ↔ ∀ p ∈ pts, ∀ i, (B i).1 ≤ p i := by
    simp only [List.mem_map, forall_exists_index, and_imp, forall_apply_eq_imp_iff₂]
    exact forall₂_congr fun p _ => forall_congr' fun i => frame_le F i _ _
  have h2 : (∀ p ∈ pts.map F.pt, ∀ i, p i ≤ (F.bounds B i).2) ↔ ∀ p ∈ pts, ∀ i, p i ≤ (B i).2 := by
    simp only [List.mem_map, forall_exists_index, and_imp, forall_apply_eq_imp_iff₂]
    exact forall₂_congr fun p _ => forall_congr' fun i => frame_le F i _ _
  simp only [checkPointsInBounds, h1, h2, map_bind_py]
  rfl

end Verif.Lemmas
