import Verif.Model.Pool
import Verif.Lemmas.StepPost

/-! Executions of the process pool (C109). -/

namespace Verif.Lemmas

open Verif.Pool

variable {α β : Type}

theorem getTasks_getElem? {c : ℕ} (hc : 0 < c) : ∀ (i : ℕ) (l : List α),
    (getTasks c l)[i]? = if i * c < l.length then some ((l.drop (i * c)).take c) else none := by
  intro i
  induction i with
  | zero =>
    intro l
    rw [getTasks]
    rcases l with _ | ⟨a, l⟩
    · simp
    · have : ¬ (c = 0 ∨ a :: l = []) := by simp [hc.ne']
      rw [dif_neg this]
      simp
  | succ i ih =>
    intro l
    rw [getTasks]
    rcases l with _ | ⟨a, l⟩
    · simp
    · have : ¬ (c = 0 ∨ a :: l = []) := by simp [hc.ne']
      rw [dif_neg this, List.getElem?_cons_succ, ih, List.drop_drop, List.length_drop]
      have e : c + i * c = (i + 1) * c := by ring
      rw [e]
      have : i * c < (a :: l).length - c ↔ (i + 1) * c < (a :: l).length := by
        rw [← e]
        omega
      simp only [this]

theorem getTasks_length {c : ℕ} (hc : 0 < c) (l : List α) :
    (getTasks c l).length = l.length / c + (if l.length % c ≠ 0 then 1 else 0) := by
  have key : ∀ i, i < (getTasks c l).length ↔ i * c < l.length := by
    intro i
    have := getTasks_getElem? hc i l
    constructor
    · intro h
      by_contra h'
      rw [if_neg h', List.getElem?_eq_none_iff] at this
      omega
    · intro h
      rw [if_pos h] at this
      exact (List.getElem?_eq_some_iff.1 this).1
  have key' : ∀ i, i < l.length / c + (if l.length % c ≠ 0 then 1 else 0) ↔ i * c < l.length := by
    intro i
    have hm := Nat.mod_lt l.length hc
    have hd := Nat.div_add_mod l.length c
    set q := l.length / c
    set r := l.length % c
    constructor
    · intro h
      have hi : i ≤ q := by split_ifs at h <;> omega
      rcases Nat.lt_or_ge i q with h1 | h1
      · have : (i + 1) * c ≤ q * c := Nat.mul_le_mul_right c h1
        have e : (i + 1) * c = i * c + c := by ring
        have e' : c * q = q * c := by ring
        omega
      · have : i = q := by omega
        subst this
        have : r ≠ 0 := by
          intro h0
          rw [if_neg (by simpa using h0)] at h
          omega
        have e' : c * q = q * c := by ring
        omega
    · intro h
      have e' : c * q = q * c := by ring
      by_contra h'
      have hi : q + (if r ≠ 0 then 1 else 0) ≤ i := by omega
      have : (q + (if r ≠ 0 then 1 else 0)) * c ≤ i * c := Nat.mul_le_mul_right c hi
      rw [add_mul] at this
      split_ifs at this with h0
      · omega
      · omega
  by_contra hne
  rcases Nat.lt_or_gt_of_ne hne with h | h
  · have := (key _).2 ((key' _).1 h)
    omega
  · have := (key' _).2 ((key _).1 h)
    omega

theorem chunksize_pos {n W : ℕ} (hn : 0 < n) (hW : 0 < W) : 0 < chunksize n W := by
  unfold chunksize
  rw [if_neg hn.ne']
  by_cases h : n % (W * 4) ≠ 0
  · rw [if_pos h]
    exact Nat.succ_pos _
  · rw [if_neg h]
    have h : n % (W * 4) = 0 := by simpa using h
    have := Nat.div_add_mod n (W * 4)
    have : n / (W * 4) ≠ 0 := by
      intro h0
      rw [h0, h] at this
      omega
    exact Nat.pos_of_ne_zero this

/-- What is known about a state: `res` are the batches whose results wait, `done` those collected. -/
def PoolInv (f : α → Py β) (l : List α) (c : ℕ) (all : List (ℕ × List α)) (s : St α β) : Prop :=
  ∃ res done, s.results = res.map (fun t => (t.1, t.2.mapM f)) ∧
    (s.tasks ++ s.running ++ res ++ done).Perm all ∧ s.job.chunksize = c ∧
    s.job.number_left + done.length = all.length ∧
    match s.job.value with
    | .ok v => v.length = l.length ∧ ∀ t ∈ done, ∀ k a, k / c = t.1 → l[k]? = some a →
        ∃ y, v[k]? = some (some y) ∧ f a = .ok y
    | .error e => ∃ t ∈ done, t.2.mapM f = .error e

theorem poolInv_step {W : ℕ} {f : α → Py β} {l : List α} {c : ℕ} (hc : 0 < c)
    {all : List (ℕ × List α)}
    (hall : ∀ t ∈ all, t.2 = (l.drop (t.1 * c)).take c ∧ t.1 * c < l.length) {s s' : St α β}
    (h : Step W f s s') (hi : PoolInv f l c all s) : PoolInv f l c all s' := by
  obtain ⟨res, done, h1, h2, h3, h4, h5⟩ := hi
  cases h with
  | @get t rest hw ht =>
    refine ⟨res, done, h1, ?_, h3, h4, h5⟩
    refine List.Perm.trans ?_ h2
    rw [ht]
    simp only [List.append_assoc, List.cons_append, List.nil_append]
    have : (rest ++ (s.running ++ t :: (res ++ done))).Perm
        (t :: (rest ++ (s.running ++ (res ++ done)))) := by
      rw [← List.append_assoc, ← List.append_assoc]
      exact List.perm_middle
    exact this
  | @put t a b ht =>
    refine ⟨res ++ [t], done, ?_, ?_, h3, h4, h5⟩
    · simp [h1]
    · refine List.Perm.trans ?_ h2
      rw [ht]
      simp only [List.append_assoc, List.cons_append, List.nil_append]
      refine List.Perm.append_left _ ?_
      have e1 : (a ++ (b ++ (res ++ t :: done))).Perm (t :: (a ++ (b ++ (res ++ done)))) := by
        rw [← List.append_assoc, ← List.append_assoc, ← List.append_assoc, ← List.append_assoc]
        exact List.perm_middle
      have e2 : (a ++ t :: (b ++ (res ++ done))).Perm (t :: (a ++ (b ++ (res ++ done)))) :=
        List.perm_middle
      exact e1.trans e2.symm
  | @collect r rest hr =>
    rw [hr] at h1
    rcases res with _ | ⟨t, res⟩
    · cases h1
    obtain ⟨rfl, rfl⟩ := List.cons.inj h1
    have hp : (s.tasks ++ s.running ++ res ++ t :: done).Perm all := by
      refine List.Perm.trans ?_ h2
      simp only [List.append_assoc, List.cons_append]
      refine List.Perm.append_left _ (List.Perm.append_left _ ?_)
      exact List.perm_middle
    have ht : t ∈ all := hp.subset (by simp)
    obtain ⟨g1, g2⟩ := hall t ht
    have hle : done.length + 1 ≤ all.length := by
      have := hp.length_eq
      simp at this
      omega
    refine ⟨res, t :: done, rfl, hp, h3, ?_, ?_⟩
    · simp only [MapResult.set, List.length_cons]
      omega
    · simp only [MapResult.set, h3]
      rcases hv : s.job.value with e | v
      · rw [hv] at h5
        obtain ⟨u, hu, hue⟩ := h5
        exact ⟨u, by simp [hu], hue⟩
      rw [hv] at h5
      obtain ⟨h5, h6⟩ := h5
      rcases hm : t.2.mapM f with e | w
      · exact ⟨t, by simp, hm⟩
      obtain ⟨m1, m2⟩ := mapM_getElem hm
      have hwl : w.length = min c (l.length - t.1 * c) := by
        rw [m1, g1]
        simp
      have hbef : (v.take (t.1 * c)).length = t.1 * c := by
        simp
        omega
      have hsucc : (t.1 + 1) * c = t.1 * c + c := by ring
      refine ⟨?_, ?_⟩
      · simp only [List.length_append, hbef, List.length_map, List.length_drop, hwl, h5, hsucc]
        omega
      · intro u hu k a hk ha
        have hkn : k < l.length := (List.getElem?_eq_some_iff.1 ha).1
        have hdm := Nat.div_add_mod k c
        have hml := Nat.mod_lt k hc
        by_cases hkt : k / c = t.1
        · have e' : c * t.1 = t.1 * c := by ring
          rw [hkt, e'] at hdm
          have hkw : k - t.1 * c < w.length := by omega
          refine ⟨w[k - t.1 * c], ?_, ?_⟩
          · rw [List.append_assoc, List.getElem?_append_right (by rw [hbef]; omega), hbef,
              List.getElem?_append_left (by simpa using hkw), List.getElem?_map,
              List.getElem?_eq_getElem hkw]
            rfl
          · refine m2 (k - t.1 * c) a _ ?_ (List.getElem?_eq_getElem hkw)
            rw [g1, List.getElem?_take, if_pos (by omega), List.getElem?_drop,
              show t.1 * c + (k - t.1 * c) = k by omega, ha]
        · have hud : u ∈ done := by
            rcases List.mem_cons.1 hu with rfl | hu
            · exact absurd hk hkt
            · exact hu
          obtain ⟨y, y1, y2⟩ := h6 u hud k a hk ha
          refine ⟨y, ?_, y2⟩
          rcases Nat.lt_or_gt_of_ne hkt with hlt | hgt
          · have : (k / c + 1) * c ≤ t.1 * c := Nat.mul_le_mul_right c hlt
            have e' : c * (k / c) = k / c * c := by ring
            have e'' : (k / c + 1) * c = k / c * c + c := by ring
            rw [List.append_assoc, List.getElem?_append_left (by rw [hbef]; omega),
              List.getElem?_take, if_pos (by omega), y1]
          · have : (t.1 + 1) * c ≤ k / c * c := Nat.mul_le_mul_right c hgt
            have e' : c * (k / c) = k / c * c := by ring
            have hwc : w.length = c := by omega
            rw [List.getElem?_append_right (by
                rw [List.length_append, hbef, List.length_map, hwc]; omega),
              List.length_append, hbef, List.length_map, hwc, List.getElem?_drop, ← y1]
            congr 1
            omega

theorem start_tasks {W : ℕ} (hW : 0 < W) {l : List α} (hl : 0 < l.length) {t : ℕ × List α} :
    t ∈ (start W l : St α β).tasks ↔ t.1 * chunksize l.length W < l.length ∧
      t.2 = (l.drop (t.1 * chunksize l.length W)).take (chunksize l.length W) := by
  have hc := chunksize_pos hl hW
  simp only [start, List.mem_map, Prod.exists, List.mem_zipIdx_iff_getElem?]
  constructor
  · rintro ⟨b, i, h, rfl⟩
    rw [getTasks_getElem? hc] at h
    split_ifs at h with h0
    exact ⟨h0, (Option.some.inj h).symm⟩
  · rintro ⟨h1, h2⟩
    refine ⟨t.2, t.1, ?_, rfl⟩
    rw [getTasks_getElem? hc, if_pos h1, h2]

theorem start_left {W : ℕ} (hW : 0 < W) {l : List α} (hl : 0 < l.length) :
    (start W l : St α β).job.number_left = (start W l : St α β).tasks.length := by
  have hc := chunksize_pos hl hW
  simp only [start, MapResult.init, List.length_map, List.length_zipIdx, getTasks_length hc,
    if_neg hc.ne']

theorem poolInv_start {W : ℕ} (hW : 0 < W) {l : List α} (hl : 0 < l.length) (f : α → Py β) :
    PoolInv f l (chunksize l.length W) (start W l : St α β).tasks (start W l) := by
  refine ⟨[], [], rfl, ?_, rfl, ?_, ?_⟩
  · simp [start]
  · rw [start_left hW hl]
    rfl
  · exact ⟨by simp, by simp⟩

theorem poolInv_run {W : ℕ} {f : α → Py β} {l : List α} {c : ℕ} (hc : 0 < c)
    {all : List (ℕ × List α)}
    (hall : ∀ t ∈ all, t.2 = (l.drop (t.1 * c)).take c ∧ t.1 * c < l.length) {n : ℕ}
    {s s' : St α β} (h : Run W f n s s') (hi : PoolInv f l c all s) : PoolInv f l c all s' := by
  induction h with
  | nil => exact hi
  | cons h1 _ ih => exact ih (poolInv_step hc hall h1 hi)

theorem mapM_error {f : α → Py β} {e : PyErr} : ∀ {l : List α}, l.mapM f = .error e →
    ∃ x ∈ l, f x = .error e
  | [], h => by cases h
  | a :: l, h => by
    rw [List.mapM_cons] at h
    rcases ha : f a with e' | b
    · rw [ha] at h
      exact ⟨a, by simp, by rw [ha]; exact congrArg _ (Except.error.inj h)⟩
    · rw [ha] at h
      rcases hl : l.mapM f with e' | bs
      · rw [hl] at h
        obtain ⟨x, hx, hx'⟩ := mapM_error hl
        exact ⟨x, by simp [hx], by rw [hx']; exact congrArg _ (Except.error.inj h)⟩
      · rw [hl] at h
        cases h

theorem pool_result {W : ℕ} (hW : 0 < W) {l : List α} (hl : 0 < l.length) {f : α → Py β} {n : ℕ}
    {s : St α β} (h : Run W f n (start W l) s) (hs : Finished s) :
    (∀ v, s.job.value = .ok v → ∃ ys, l.mapM f = .ok ys ∧ v = ys.map some) ∧
    ∀ e, s.job.value = .error e → ∃ t ∈ (start W l : St α β).tasks, t.2.mapM f = .error e := by
  have hc := chunksize_pos hl hW
  have hall : ∀ t ∈ (start W l : St α β).tasks, t.2 =
      (l.drop (t.1 * chunksize l.length W)).take (chunksize l.length W) ∧
        t.1 * chunksize l.length W < l.length := fun t ht => ((start_tasks hW hl).1 ht).symm
  obtain ⟨res, done, -, h2, -, h4, h5⟩ := poolInv_run hc hall h (poolInv_start hW hl f)
  rw [show s.job.number_left = 0 from hs, Nat.zero_add] at h4
  have hdone : ∀ t ∈ (start W l : St α β).tasks, t ∈ done := by
    have hlen := h2.length_eq
    simp only [List.length_append] at hlen
    have e1 : s.tasks = [] := List.length_eq_zero_iff.1 (by omega)
    have e2 : s.running = [] := List.length_eq_zero_iff.1 (by omega)
    have e3 : res = [] := List.length_eq_zero_iff.1 (by omega)
    rw [e1, e2, e3] at h2
    intro t ht
    simpa using h2.symm.subset ht
  have hdone' : ∀ t ∈ done, t ∈ (start W l : St α β).tasks := fun t ht => h2.subset (by simp [ht])
  constructor
  · intro v hv
    rw [hv] at h5
    obtain ⟨hvl, h5⟩ := h5
    have key : ∀ k (hk : k < l.length), ∃ y, v[k]? = some (some y) ∧ f l[k] = .ok y := by
      intro k hk
      refine h5 (k / chunksize l.length W, (l.drop (k / chunksize l.length W *
        chunksize l.length W)).take (chunksize l.length W)) (hdone _ ((start_tasks hW hl).2 ⟨?_, rfl⟩)) k _ rfl
        (List.getElem?_eq_getElem hk)
      exact lt_of_le_of_lt (Nat.div_mul_le_self _ _) hk
    choose g g1 g2 using key
    refine ⟨List.ofFn fun k : Fin l.length => g k k.2, ?_, ?_⟩
    · have : ∀ m (hm : m ≤ l.length), (l.drop m).mapM f =
          .ok ((List.ofFn fun k : Fin l.length => g k k.2).drop m) := by
        intro m hm
        induction hm' : l.length - m generalizing m with
        | zero =>
          rw [List.drop_eq_nil_of_le (by omega),
            List.drop_eq_nil_of_le (by rw [List.length_ofFn]; omega)]
          rfl
        | succ j ih =>
          rw [List.drop_eq_getElem_cons (by omega), List.drop_eq_getElem_cons (l := List.ofFn _)
              (by rw [List.length_ofFn]; omega),
            List.mapM_cons, g2 m (by omega), ih (m + 1) (by omega) (by omega)]
          simp only [List.getElem_ofFn]
          rfl
      simpa using this 0 (by omega)
    · apply List.ext_getElem?
      intro k
      by_cases hk : k < l.length
      · rw [g1 k hk]
        simp [hk]
      · rw [List.getElem?_eq_none (by omega), List.getElem?_eq_none (by simp; omega)]
  · intro e he
    rw [he] at h5
    obtain ⟨t, ht, hte⟩ := h5
    exact ⟨t, hdone' t ht, hte⟩

/-- The actions still to come. -/
def poolWork (s : St α β) : ℕ := 3 * s.tasks.length + 2 * s.running.length + s.results.length

theorem poolWork_step {W : ℕ} {f : α → Py β} {s s' : St α β} (h : Step W f s s') :
    poolWork s' + 1 = poolWork s := by
  cases h with
  | @get t rest hw ht =>
    simp [poolWork, ht]
    omega
  | @put t a b ht =>
    simp [poolWork, ht]
    omega
  | @collect r rest hr =>
    simp [poolWork, hr]
    omega

theorem poolWork_run {W : ℕ} {f : α → Py β} {n : ℕ} {s s' : St α β} (h : Run W f n s s') :
    poolWork s' + n = poolWork s := by
  induction h with
  | nil => rfl
  | cons h1 _ ih =>
    have := poolWork_step h1
    omega

theorem run_snoc {W : ℕ} {f : α → Py β} {n : ℕ} {s s' s'' : St α β} (h : Run W f n s s')
    (h' : Step W f s' s'') : Run W f (n + 1) s s'' := by
  induction h with
  | nil => exact .cons h' (.nil _)
  | cons h1 _ ih => exact .cons h1 (ih h')

theorem pool_progress {W : ℕ} (hW : 0 < W) {f : α → Py β} {s : St α β} (h : 0 < poolWork s) :
    ∃ s', Step W f s s' := by
  rcases hr : s.results with _ | ⟨r, rest⟩
  · rcases hq : s.running with _ | ⟨t, b⟩
    · rcases ht : s.tasks with _ | ⟨t, rest⟩
      · simp [poolWork, hr, hq, ht] at h
      · exact ⟨_, .get (by rw [hq]; simpa using hW) ht⟩
    · exact ⟨_, .put (a := []) hq⟩
  · exact ⟨_, .collect hr⟩

end Verif.Lemmas
