import Verif.Model.Covariance
import Verif.Spec.Kernels

/-! `cov_main` in closed form. -/

namespace Verif.Lemmas

open Verif.Spec Verif.Covariance Verif.UtilsCovariance Verif.Constants

theorem finiteNonzero_fin {a : ℝ} (h : a ≠ 0) : finiteNonzero (.fin a) = .ok a := by
  simp [finiteNonzero, finite, bind, Except.bind, pure, Except.pure, h]

theorem mapM_finiteNonzero (l : List ℝ) (h : ∀ a ∈ l, a ≠ 0) :
    (l.map Flt.fin).mapM finiteNonzero = .ok l := by
  induction l with
  | nil => rfl
  | cons a t ih =>
    have ha := finiteNonzero_fin (h a (by simp))
    have ht := ih fun b hb => h b (by simp [hb])
    simp [List.mapM_cons, ha, ht, bind, Except.bind, pure, Except.pure]

/-- Lengthscales `L` of the model stand for the numbers `l`. -/
def Stands {d : ℕ} (L : Lengthscales d) (l : Fin d → ℝ) : Prop :=
  L = .ard l ∨ ∃ a, a ≠ 0 ∧ (∀ k, l k = a) ∧ L = .iso a

theorem lengthscalesKey_ok {d : ℕ} {h : HypDict} {σ s : ℝ} {l : Fin d → ℝ}
    (hd : Describes h σ s l) : ∃ L, lengthscalesKey d h.lengthscales = .ok L ∧ Stands L l ∧
      (h.lengthscales = some (.arr (List.ofFn fun k => .fin (l k))) → L = .ard l) ∧
      (∀ a, h.lengthscales = some (.flt (.fin a)) → L = .iso a) := by
  rcases hd.lengthscales with hl | ⟨a, ha, hla, hl⟩
  · refine ⟨.ard l, ?_, .inl rfl, fun _ => rfl, fun a ha => by simp [hl] at ha⟩
    have e : (List.ofFn fun k => Flt.fin (l k)) = (List.ofFn l).map Flt.fin := by
      rw [List.map_ofFn]; rfl
    have hm := mapM_finiteNonzero (List.ofFn l) (by
      intro a ha
      rw [List.mem_ofFn] at ha
      obtain ⟨k, rfl⟩ := ha
      exact hd.nonzero k)
    rw [hl, e]
    simp only [lengthscalesKey, getKey, hm, bind, Except.bind, pure, Except.pure]
    simp
  · refine ⟨.iso a, ?_, .inr ⟨a, ha, hla, rfl⟩, fun h => by simp [hl] at h,
      fun b hb => by simp [hl] at hb; simp [hb]⟩
    rw [hl]
    simp [lengthscalesKey, getKey, finiteNonzero_fin ha, bind, Except.bind, pure, Except.pure]

theorem Stands.scale {d : ℕ} {L : Lengthscales d} {l : Fin d → ℝ} (h : Stands L l)
    (x : Point d) (k : Fin d) : L.scale x k = x k / l k := by
  rcases h with rfl | ⟨a, _, hl, rfl⟩
  · rfl
  · simp [Lengthscales.scale, hl]

theorem Stands.dist {n m d : ℕ} {L : Lengthscales d} {l : Fin d → ℝ} (h : Stands L l)
    (X : Fin n → Point d) (Xp : Fin m → Point d) (i : Fin n) (j : Fin m) :
    scaledDist X Xp L i j = scaledDistance l (X i) (Xp j) := by
  simp [scaledDist, norm2, scaledDistance, h.scale, sub_div]

theorem numKey_fin (x : ℝ) : numKey (some (.flt (.fin x))) = .ok x := by
  simp [numKey, getKey, finite, bind, Except.bind]

theorem base_allowed {name : String} (h : name ∈ baseNames) : name ∈ ALLOWED_COV_BASE := h

theorem base_allowed' {name : String} (h : name ∈ baseNames) : name ∈ ALLOWED_COV := by
  unfold ALLOWED_COV; exact List.mem_append_left _ h

theorem validate_describes {d : ℕ} {h : HypDict} {σ s : ℝ} {l : Fin d → ℝ}
    (hd : Describes h σ s l) {name : String} (hn : name ∈ ALLOWED_COV) :
    (validateHypsDict h name d).2 = .ok h := by
  obtain ⟨hno, hsi, hl, hnz⟩ := hd
  rcases h with ⟨noise, dof, signal, ls⟩
  simp only at hno hsi hl
  subst hno hsi
  have hb : ¬ (BOUND_UPPER_GP_NOISE ≤ absF (.fin σ)) := by
    change ¬ Flt.le _ _
    simp [BOUND_UPPER_GP_NOISE, absF, Flt.le]
  have hv : validLengthscales ⟨some (.flt (.fin σ)), dof, some (.flt (.fin s)), ls⟩ d = true := by
    rcases hl with hl | ⟨a, _, _, hl⟩ <;> subst hl <;> simp [validLengthscales]
  simp [validateHypsDict, hn, validateNoise, hb, validateDof, hv, validSignal]

theorem chooseFunCov_ok {name : String} (h : name ∈ baseNames) :
    ∃ c, chooseFunCov name = .ok c ∧ ∀ {n m d : ℕ} (X : Fin n → Point d) (Xp : Fin m → Point d)
      (L : Lengthscales d) (l : Fin d → ℝ) (s : ℝ) (i : Fin n) (j : Fin m), Stands L l →
      c.cov X Xp L s i j = kernel name s l (X i) (Xp j) := by
  simp only [baseNames, List.mem_cons, List.not_mem_nil, or_false] at h
  rcases h with rfl | rfl | rfl | rfl
  · refine ⟨.se, by simp [chooseFunCov], ?_⟩
    intro n m d X Xp L l s i j hL
    simp only [CovName.cov, covSe, hL.dist, kernel, profile, String.reduceEq, if_false, seProfile]
    congr 2
    ring
  · refine ⟨.se, by simp [chooseFunCov], ?_⟩
    intro n m d X Xp L l s i j hL
    simp only [CovName.cov, covSe, hL.dist, kernel, profile, String.reduceEq, if_false, seProfile]
    congr 2
    ring
  · refine ⟨.matern32, by simp [chooseFunCov], ?_⟩
    intro n m d X Xp L l s i j hL
    simp only [CovName.cov, covMatern32, hL.dist, kernel, profile, m32Profile, if_true]
    rw [mul_assoc]; congr 3; ring
  · refine ⟨.matern52, by simp [chooseFunCov], ?_⟩
    intro n m d X Xp L l s i j hL
    simp only [CovName.cov, covMatern52, hL.dist, kernel, profile, m52Profile]
    simp only [String.reduceEq, if_true, if_false]
    rw [mul_assoc]; congr 3
    · ring
    · ring

/-- `cov_main` for a base covariance function. -/
theorem covMain_base {n m d : ℕ} {name : String} (hn : name ∈ baseNames) {h : HypDict}
    {σ s : ℝ} {l : Fin d → ℝ} (hd : Describes h σ s l) (X : Fin n → Point d)
    (Xp : Fin m → Point d) (same : Bool) (hs : same = true → n = m) (jit : ℝ) :
    covMain name (.vec X) (.vec Xp) h same jit = .ok (fun i j =>
      (if same = true ∧ i.val = j.val then jit else 0) + kernel name s l (X i) (Xp j)) := by
  obtain ⟨c, hc, hk⟩ := chooseFunCov_ok hn
  obtain ⟨L, hL, hst, -⟩ := lengthscalesKey_ok hd
  have hv := validate_describes hd (base_allowed' hn)
  have hsig : numKey h.signal = .ok s := by rw [hd.signal]; exact numKey_fin s
  have h1 := base_allowed' hn
  have h2 := base_allowed hn
  cases same with
  | false =>
    simp only [covMain, pyAssert, h1, if_true, h2, hv, hc, hL, hsig, bind, Except.bind, pure,
      Except.pure, Bool.false_eq_true, if_false, false_and, zero_add]
    congr 1
    ext i j
    exact hk X Xp L l s i j hst
  | true =>
    have hnm := hs rfl
    simp only [covMain, pyAssert, h1, if_true, h2, hv, hc, hL, hsig, bind, Except.bind, pure,
      Except.pure, hnm, true_and]
    congr 1
    ext i j
    rw [Matrix.add_apply, hk X Xp L l s i j hst]
    simp [npEye]

theorem covSet_ok {d p q : ℕ} {name : String} (hn : name ∈ baseNames) {L : Lengthscales d}
    {l : Fin d → ℝ} (hL : Stands L l) (s : ℝ) (X : Fin p → Point d) (Xp : Fin q → Point d)
    (hp : p ≠ 0) (hq : q ≠ 0) : covSet name X Xp L s = .ok (setKernel name s l X Xp) := by
  obtain ⟨c, hc, hk⟩ := chooseFunCov_ok hn
  have hpq : p * q ≠ 0 := Nat.mul_ne_zero hp hq
  simp only [covSet, pyAssert, base_allowed hn, if_true, hc, bind, Except.bind, pure, Except.pure,
    hpq, if_false, setKernel, hk X Xp L l s _ _ hL, Nat.cast_mul]

theorem foldlM_ok {α β : Type} (f : β → α → β) (l : List α) (b : β) :
    l.foldlM (m := Py) (fun b a => .ok (f b a)) b = .ok (l.foldl f b) := by
  induction l generalizing b with
  | nil => rfl
  | cons a t ih => simp [List.foldlM_cons, bind, Except.bind, ih]

/-- One row of the rectangular loop. -/
theorem row_fold {n m : ℕ} (v : Fin m → ℝ) (i : Fin n) (js : List (Fin m)) (hj : js.Nodup)
    (A : Matrix (Fin n) (Fin m) ℝ) (a : Fin n) (b : Fin m) :
    js.foldl (fun A j => setEntry A i j (A i j + v j)) A a b =
      if a = i ∧ b ∈ js then A a b + v b else A a b := by
  induction js generalizing A with
  | nil => simp
  | cons j t ih =>
    obtain ⟨hjt, ht⟩ := List.nodup_cons.mp hj
    rw [List.foldl_cons, ih ht]
    by_cases ha : a = i
    · subst ha
      by_cases hb : b = j
      · subst hb; simp [setEntry, hjt]
      · simp [setEntry, hb]
    · simp [setEntry, ha]

theorem rect_fold {n m : ℕ} (v : Fin n → Fin m → ℝ) (is : List (Fin n)) (hi : is.Nodup)
    (A : Matrix (Fin n) (Fin m) ℝ) (a : Fin n) (b : Fin m) :
    is.foldl (fun A i => (List.finRange m).foldl
      (fun A j => setEntry A i j (A i j + v i j)) A) A a b =
      if a ∈ is then A a b + v a b else A a b := by
  induction is generalizing A with
  | nil => simp
  | cons i t ih =>
    obtain ⟨hit, ht⟩ := List.nodup_cons.mp hi
    rw [List.foldl_cons, ih ht, row_fold _ _ _ (List.nodup_finRange m)]
    by_cases ha : a = i
    · subst ha; simp [hit]
    · simp [ha]

theorem setLoop_ok {n m d p q : ℕ} {name : String} (hn : name ∈ baseNames) {L : Lengthscales d}
    {l : Fin d → ℝ} (hL : Stands L l) (s : ℝ) (X : Fin n → Fin p → Point d)
    (Xp : Fin m → Fin q → Point d) (hp : p ≠ 0) (hq : q ≠ 0) (A : Matrix (Fin n) (Fin m) ℝ) :
    setLoop name X Xp L s A = .ok (fun i j => A i j + setKernel name s l (X i) (Xp j)) := by
  simp only [setLoop, covSet_ok hn hL s _ _ hp hq, bind, Except.bind, pure, Except.pure]
  simp only [foldlM_ok]
  congr 1
  ext a b
  rw [rect_fold _ _ (List.nodup_finRange n)]
  simp

/-- The step of the mirrored loop. -/
def mirror {n : ℕ} (v : Fin n → Fin n → ℝ) (i : Fin n) (A : Matrix (Fin n) (Fin n) ℝ)
    (j : Fin n) : Matrix (Fin n) (Fin n) ℝ :=
  if i.val < j.val then
    setEntry (setEntry A i j (A i j + v i j)) j i (setEntry A i j (A i j + v i j) i j)
  else setEntry A i j (A i j + v i j)

theorem mirror_row {n : ℕ} (v : Fin n → Fin n → ℝ) (i : Fin n) (js : List (Fin n))
    (hj : js.Nodup) (hge : ∀ j ∈ js, i ≤ j) (A : Matrix (Fin n) (Fin n) ℝ) (a b : Fin n) :
    js.foldl (mirror v i) A a b =
      if a = i ∧ b ∈ js then A i b + v i b
      else if b = i ∧ a ∈ js then A i a + v i a else A a b := by
  induction js generalizing A with
  | nil => simp
  | cons j t ih =>
    obtain ⟨hjt, ht⟩ := List.nodup_cons.mp hj
    rw [List.foldl_cons, ih ht fun j hj => hge j (by simp [hj])]
    have hij : i ≤ j := hge j (by simp)
    have hm : ∀ x y, mirror v i A j x y =
        if x = i ∧ y = j then A i j + v i j
        else if x = j ∧ y = i then A i j + v i j else A x y := by
      intro x y
      rcases hij.eq_or_lt with rfl | hlt
      · simp only [mirror, lt_irrefl, if_false, setEntry]
        split_ifs <;> first | rfl | (exfalso; tauto)
      · have hlt' : i.val < j.val := hlt
        have hne : i ≠ j := ne_of_lt hlt
        simp only [mirror, hlt', if_true, setEntry]
        by_cases h1 : x = j ∧ y = i
        · obtain ⟨rfl, rfl⟩ := h1
          simp
        · by_cases h2 : x = i ∧ y = j
          · simp [h1, h2]
          · simp [h1, h2]
    simp only [hm]
    by_cases ha : a = i
    · subst ha
      by_cases hb : b = j
      · subst hb
        simp only [hjt, and_false, if_false, and_self, if_true, List.mem_cons, or_false, true_and]
        have h : ¬ (b = a ∧ a ∈ t) := by
          rintro ⟨rfl, h2⟩
          exact hjt h2
        rw [if_neg h]
      · by_cases hbt : b ∈ t
        · simp only [hbt, and_self, if_true, List.mem_cons, or_true, hb, and_false, if_false]
          split_ifs with h
          · obtain ⟨rfl, rfl⟩ := h
            exact absurd rfl hb
          · rfl
        · simp only [hbt, and_false, if_false, List.mem_cons, hb, or_false, true_and]
          by_cases hba : b = a
          · subst hba
            simp [hbt, hb]
          · simp [hba]
    · by_cases hb : b = i
      · subst hb
        by_cases haj : a = j
        · subst haj; simp [ha, hjt]
        · by_cases hat : a ∈ t
          · simp [ha, hat, haj]
          · simp [ha, hat, haj]
      · simp [ha, hb]

theorem mirror_fold {n : ℕ} (v : Fin n → Fin n → ℝ) (k : ℕ) (hk : k ≤ n)
    (A : Matrix (Fin n) (Fin n) ℝ) (hA : ∀ i j, A i j = A j i) (a b : Fin n) :
    ((List.finRange n).take k).foldl
      (fun A i => ((List.finRange n).drop i.val).foldl (mirror v i) A) A a b =
      if (min a b).val < k then A a b + v (min a b) (max a b) else A a b := by
  induction k generalizing a b with
  | zero => simp
  | succ k ih =>
    have hkn : k < n := by omega
    have ht : (List.finRange n).take (k + 1) = (List.finRange n).take k ++ [⟨k, hkn⟩] := by
      rw [List.take_succ_eq_append_getElem (by simpa using hkn)]
      simp
    rw [ht, List.foldl_append, List.foldl_cons, List.foldl_nil]
    have hmem : ∀ j : Fin n, j ∈ (List.finRange n).drop k ↔ k ≤ j.val := by
      intro j
      rw [List.mem_drop_iff_getElem]
      constructor
      · rintro ⟨i, hi, rfl⟩; simp
      · intro h
        refine ⟨j.val - k, by simp; omega, ?_⟩
        ext; simp; omega
    rw [mirror_row v _ _ ((List.nodup_finRange n).sublist (List.drop_sublist _ _))
      (fun j hj => (hmem j).mp hj)]
    rw [ih (by omega), ih (by omega), ih (by omega)]
    simp only [hmem]
    rcases le_total a b with hab | hab
    · rw [min_eq_left hab, max_eq_right hab]
      by_cases ha : a = ⟨k, hkn⟩
      · subst ha
        have : k ≤ b.val := hab
        simp [this, min_eq_left hab, max_eq_right hab]
      · have hak : a.val ≠ k := fun h => ha (Fin.ext h)
        have e : ¬ (b = ⟨k, hkn⟩ ∧ k ≤ a.val) := by
          rintro ⟨rfl, h⟩
          have : a.val ≤ k := hab
          omega
        simp only [ha, false_and, if_false, e]
        by_cases h : a.val < k
        · simp [h, show a.val < k + 1 by omega]
        · simp [h, show ¬ a.val < k + 1 by omega]
    · rw [min_eq_right hab, max_eq_left hab]
      by_cases hb : b = ⟨k, hkn⟩
      · subst hb
        have hk' : k ≤ a.val := hab
        by_cases ha : a = ⟨k, hkn⟩
        · subst ha; simp
        · simp [hk', ha, min_eq_left hab, max_eq_right hab, hA a]
      · have hbk : b.val ≠ k := fun h => hb (Fin.ext h)
        have e : ¬ (a = ⟨k, hkn⟩ ∧ k ≤ b.val) := by
          rintro ⟨rfl, h⟩
          have : b.val ≤ k := hab
          omega
        simp only [hb, false_and, if_false, e]
        by_cases h : b.val < k
        · simp [h, show b.val < k + 1 by omega]
        · simp [h, show ¬ b.val < k + 1 by omega]

theorem setLoopSame_ok {n d p : ℕ} {name : String} (hn : name ∈ baseNames) {L : Lengthscales d}
    {l : Fin d → ℝ} (hL : Stands L l) (s : ℝ) (X : Fin n → Fin p → Point d) (hp : p ≠ 0)
    (A : Matrix (Fin n) (Fin n) ℝ) (hA : ∀ i j, A i j = A j i) (h : n = n) :
    setLoopSame h name X X L s A = .ok (fun i j => A i j +
      setKernel name s l (X (min i j)) (X (max i j))) := by
  have e : setLoopSame h name X X L s A = .ok ((List.finRange n).foldl (fun A i =>
      ((List.finRange n).drop i.val).foldl
        (mirror (fun i j => setKernel name s l (X i) (X j)) i) A) A) := by
    simp only [setLoopSame, covSet_ok hn hL s _ _ hp hp, bind, Except.bind, pure, Except.pure]
    rw [← foldlM_ok]
    congr 1
    ext1 B; ext1 i
    rw [← foldlM_ok]
    congr 1
    ext1 B; ext1 j
    unfold mirror
    split_ifs <;> rfl
  rw [e]
  congr 1
  ext a b
  have := mirror_fold (fun i j => setKernel name s l (X i) (X j)) n le_rfl A hA a b
  rw [List.take_of_length_le (by simp)] at this
  rw [this]
  simp

theorem setKernel_symm {d p q : ℕ} (name : String) (s : ℝ) (l : Fin d → ℝ) (x : Fin p → Point d)
    (y : Fin q → Point d) : setKernel name s l x y = setKernel name s l y x := by
  have hd : ∀ a b, scaledDistance l a b = scaledDistance l b a := by
    intro a b
    unfold scaledDistance
    congr 1
    exact Finset.sum_congr rfl fun k _ => by ring
  unfold setKernel kernel
  rw [Finset.sum_comm, mul_comm (p : ℝ)]
  simp only [fun a b => hd (x a) (y b)]

theorem setName {name : String} (hn : name ∈ baseNames) :
    "set_" ++ name ∈ ALLOWED_COV ∧ "set_" ++ name ∉ ALLOWED_COV_BASE ∧
    "set_" ++ name ∈ ALLOWED_COV_SET ∧ setBaseName ("set_" ++ name) = .ok name := by
  simp only [baseNames, List.mem_cons, List.not_mem_nil, or_false] at hn
  rcases hn with rfl | rfl | rfl | rfl <;>
    simp [ALLOWED_COV, ALLOWED_COV_BASE, ALLOWED_COV_SET, setBaseName]

/-- `cov_main` for a set covariance function, different inputs. -/
theorem covMain_set {n m d p q : ℕ} {name : String} (hn : name ∈ baseNames) {h : HypDict}
    {σ s : ℝ} {l : Fin d → ℝ} (hd : Describes h σ s l) (X : Fin n → Fin p → Point d)
    (Xp : Fin m → Fin q → Point d) (hp : p ≠ 0) (hq : q ≠ 0) (jit : ℝ) :
    covMain ("set_" ++ name) (.set p X) (.set q Xp) h false jit =
      .ok (fun i j => setKernel name s l (X i) (Xp j)) := by
  obtain ⟨h1, h2, h3, h4⟩ := setName hn
  obtain ⟨L, hL, hst, -⟩ := lengthscalesKey_ok hd
  have hv := validate_describes hd (base_allowed' hn)
  have hsig : numKey h.signal = .ok s := by rw [hd.signal]; exact numKey_fin s
  simp only [covMain, pyAssert, h1, if_true, h2, if_false, h3, h4, hv, hL, hsig, bind, Except.bind,
    pure, Except.pure, Bool.false_eq_true, setLoop_ok hn hst s X Xp hp hq]
  congr 1
  ext i j
  simp

/-- `cov_main` for a set covariance function, same inputs. -/
theorem covMain_set_same {n d p : ℕ} {name : String} (hn : name ∈ baseNames) {h : HypDict}
    {σ s : ℝ} {l : Fin d → ℝ} (hd : Describes h σ s l) (X : Fin n → Fin p → Point d)
    (hp : p ≠ 0) (jit : ℝ) :
    covMain ("set_" ++ name) (.set p X) (.set p X) h true jit =
      .ok (fun i j => (if i = j then jit else 0) + setKernel name s l (X i) (X j)) := by
  obtain ⟨h1, h2, h3, h4⟩ := setName hn
  obtain ⟨L, hL, hst, -⟩ := lengthscalesKey_ok hd
  have hv := validate_describes hd (base_allowed' hn)
  have hsig : numKey h.signal = .ok s := by rw [hd.signal]; exact numKey_fin s
  have hA : ∀ i j : Fin n, (jit • npEye n n) i j = (jit • npEye n n) j i := by
    intro i j
    simp [npEye, eq_comm]
  simp only [covMain, pyAssert, h1, if_true, h2, if_false, h3, h4, hv, hL, hsig, bind, Except.bind,
    pure, Except.pure, setLoopSame_ok hn hst s X hp _ hA, dite_true]
  congr 1
  ext i j
  rcases le_total i j with hij | hij
  · rw [min_eq_left hij, max_eq_right hij]; simp [npEye, Fin.ext_iff]
  · rw [min_eq_right hij, max_eq_left hij, setKernel_symm]; simp [npEye, Fin.ext_iff]

end Verif.Lemmas
