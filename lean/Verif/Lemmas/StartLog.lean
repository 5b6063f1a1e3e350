import Verif.Spec.StartLog
import Verif.Model.StartLog
import Verif.Props.Logger
import Verif.Props.WrapperOptions
import Std.Data.String.ToInt

/-! The messages at the start of a run. -/

namespace Verif.Lemmas

open Verif.Spec Verif.BoCommon Verif.UtilsBo Verif.Constants Verif.BaseBo Verif.WrapperClass
open Verif.StartLog Verif.UtilsLogger

variable {d : ℕ}

theorem colon_key : ∀ {k k' v : List Char}, ':' ∉ k → ':' ∉ k' →
    k ++ [':', ' '] <+: k' ++ ':' :: v → k = k' ∧ [' '] <+: v
  | [], [], v, _, _, h => by
    simp only [List.nil_append, List.cons_prefix_cons] at h
    exact ⟨rfl, h.2⟩
  | [], c :: k', v, _, h2, h => by
    simp only [List.nil_append, List.cons_append, List.cons_prefix_cons] at h
    exact (h2 (by rw [← h.1]; exact List.mem_cons_self)).elim
  | c :: k, [], v, h1, _, h => by
    simp only [List.nil_append, List.cons_append, List.cons_prefix_cons] at h
    exact (h1 (by rw [h.1]; exact List.mem_cons_self)).elim
  | c :: k, c' :: k', v, h1, h2, h => by
    simp only [List.cons_append, List.cons_prefix_cons] at h
    obtain ⟨rfl, h⟩ := h
    obtain ⟨rfl, h'⟩ := colon_key (fun m => h1 (List.mem_cons_of_mem _ m))
      (fun m => h2 (List.mem_cons_of_mem _ m)) h
    exact ⟨rfl, h'⟩

theorem line_reports {k k' v : String} (hk : ':' ∉ k.toList) (hk' : ':' ∉ k'.toList) :
    (k.toList ++ [':', ' ']).isPrefixOf (line k' v).toList = decide (k = k') := by
  rw [Bool.eq_iff_iff, List.isPrefixOf_iff_prefix, decide_eq_true_iff]
  have e : (line k' v).toList = k'.toList ++ ':' :: ' ' :: v.toList := by
    simp [line, String.toList_append]
  rw [e]
  constructor
  · intro h
    exact String.toList_injective (colon_key hk hk' h).1
  · rintro rfl
    exact ⟨v.toList, by simp⟩

theorem range_reports {k v : String} (hk : ':' ∉ k.toList) :
    (k.toList ++ [':', ' ']).isPrefixOf ("range_X:\n" ++ v).toList = false := by
  rw [Bool.eq_false_iff, ne_eq, List.isPrefixOf_iff_prefix]
  have e : ("range_X:\n" ++ v).toList = "range_X".toList ++ ':' :: '\n' :: v.toList := by
    simp [String.toList_append]
  rw [e]
  intro h
  have := (colon_key hk (by decide) h).2
  simp at this

theorem rule_reports {k : String} (hk : ':' ∉ k.toList) :
    (k.toList ++ [':', ' ']).isPrefixOf "====================".toList = false := by
  rw [Bool.eq_false_iff, ne_eq, List.isPrefixOf_iff_prefix]
  intro h
  have : ':' ∈ "====================".toList := h.subset (by simp)
  exact absurd this (by decide)

theorem line_inj {k v v' : String} (h : line k v = line k v') : v = v' := by
  have := congrArg String.toList h
  simp only [line, String.toList_append, List.append_cancel_left_eq] at this
  exact String.toList_injective this

theorem strBool_eq (b : Bool) : strBool b = truth b := by cases b <;> rfl

theorem strBool_inj {b b' : Bool} (h : strBool b = strBool b') : b = b' := by
  cases b <;> cases b' <;> first | rfl | exact absurd h (by decide)

theorem strSeed_eq (s : Option ℤ) : strSeed s = (s.map toString).getD "None" := by
  cases s <;> rfl

theorem repr_ne_none (n : ℤ) : n.repr ≠ "None" := by
  intro h
  have hi := Int.isInt_repr n
  rw [h] at hi
  rcases String.isInt_iff.1 hi with hn | ⟨t, ht, -⟩
  · have := (String.isNat_iff.1 hn).2.1 'N' (by decide)
    revert this
    decide
  · have := congrArg String.toList ht
    simp only [String.toList_append] at this
    have h0 := congrArg List.head? this
    revert h0
    simp

theorem strSeed_inj {s s' : Option ℤ} (h : strSeed s = strSeed s') : s = s' := by
  cases s <;> cases s'
  · rfl
  · exact (repr_ne_none _ h.symm).elim
  · exact (repr_ne_none _ h).elim
  · exact congrArg _ (Int.repr_injective h)

/-- The attributes an object of each kind has. -/
theorem attrs_ok {env : Installed} {a : Args d} {debug : Bool} {w : Attrs d}
    (h : createAttrs env a debug = .ok w) :
    (∃ r, create env a = .ok r) ∧
    let base : Attrs d := {
      range_X := a.range_X
      num_iter := a.num_iter
      str_surrogate := a.str_surrogate
      str_acq := a.str_acq
      normalize_Y := a.normalize_Y
      str_initial_method_bo := a.str_initial_method_bo
      str_sampling_method_ao := a.str_sampling_method_ao
      str_optimizer_method_bo := usedOptimizer env d a.str_optimizer_method_bo
      num_samples_ao := a.num_samples_ao
      debug := debug }
    (a.str_surrogate = "rf" ∧ w = base ∨
     a.str_surrogate = "gp" ∧ w = { base with
        str_cov := some a.str_cov
        use_ard := some a.use_ard
        str_optimizer_method_gp := some a.str_optimizer_method_gp
        str_mlm_method := some a.str_mlm_method
        str_modelselection_method := some a.str_modelselection_method } ∨
     a.str_surrogate = "tp" ∧ w = { base with
        str_cov := some a.str_cov
        use_ard := some a.use_ard
        str_optimizer_method_tp := some a.str_optimizer_method_tp }) := by
  unfold createAttrs at h
  obtain ⟨_, h1, h⟩ := py_bind_ok h
  obtain ⟨m', h2, h⟩ := py_bind_ok h
  obtain ⟨r, h3, h⟩ := py_bind_ok h
  have hc : ∃ r, create env a = .ok r := by
    simp only [create, h1, h2, h3, bind, Except.bind]
    exact ⟨_, rfl⟩
  refine ⟨hc, ?_⟩
  obtain ⟨⟨w0, st⟩, hc⟩ := hc
  obtain ⟨rfl, -⟩ := used_optimizer h2
  obtain rfl := Except.ok.inj h
  obtain ⟨-, -, -, -, -, -, -, _, -, hcase⟩ := create_ok hc
  rcases hcase with ⟨e, -⟩ | ⟨e, -⟩ | ⟨e, -⟩
  · exact .inl ⟨e, by simp only [e]; rfl⟩
  · exact .inr (.inl ⟨e, by simp only [e]; rfl⟩)
  · exact .inr (.inr ⟨e, by simp only [e]; rfl⟩)

/-- What is logged for an object of each kind. -/
theorem printInfo_ok {env : Installed} {a : Args d} {debug : Bool} {w : Attrs d}
    (h : createAttrs env a debug = .ok w) (num_init : ℤ) (seed : Option ℤ) :
    ∃ r, getStrArray (rangeArray a.range_X) = .ok r ∧ printInfo w num_init seed = .ok
      ("====================" :: ("range_X:\n" ++ r) ::
        (((settings env a debug num_init seed).filter fun s => a.str_surrogate ∈ s.concerns).map
          fun s => line s.name s.text) ++ ["===================="]) := by
  refine ⟨_, rfl, ?_⟩
  obtain ⟨-, ⟨e, rfl⟩ | ⟨e, rfl⟩ | ⟨e, rfl⟩⟩ := attrs_ok h
  all_goals
    simp only [printInfo, e, settings, rangeArray, getStrArray, ALLOWED_SURROGATE, strBool_eq,
      strSeed_eq, readAttr]
    rfl

/-! ### The search space -/

/-- The words of a text. -/
def wordsOf (l : List Token) : List (List Char) :=
  l.filterMap fun t => match t with | .word w => some w | _ => none

theorem words_intercalate : ∀ ps : List (List Token),
    wordsOf ([Token.comma].intercalate ps) = (ps.map wordsOf).flatten
  | [] => rfl
  | [p] => by simp [List.intercalate]
  | p :: q :: ps => by
    have := words_intercalate (q :: ps)
    simp only [wordsOf, List.intercalate, List.intersperse_cons₂, List.flatten_cons,
      List.filterMap_append, List.map_cons] at this ⊢
    rw [this]
    rfl

theorem words_bracketed (ps : List (List Token)) :
    wordsOf (bracketed ps) = (ps.map wordsOf).flatten := by
  rw [← words_intercalate]
  simp [bracketed, wordsOf]

theorem decimal_text_inj {t t' : Decimal} {s : String} (h : t.Text s) (h' : t'.Text s) : t = t' := by
  obtain ⟨a, b, e, hb, h1, h2⟩ := h
  obtain ⟨a', b', e', hb', h1', h2'⟩ := h'
  have key := congrArg String.toList (e.symm.trans e')
  simp only [String.toList_append] at key
  have hl : b.toList.length = b'.toList.length := by
    rw [String.length_toList, String.length_toList, hb, hb']
  obtain ⟨k1, k2⟩ := List.append_inj' key hl
  obtain rfl := String.toList_injective k2
  have k3 := List.append_cancel_right k1
  have hminus : ∀ {x y : String} {n : ℕ}, x.toNat? = some n → x.toList = '-' :: y.toList → False := by
    intro x y n hx hxy
    have := (String.isNat_iff.1 (String.isNat_of_toNat?_eq_some hx)).2.1 '-'
      (by rw [hxy]; exact List.mem_cons_self)
    revert this
    decide
  obtain ⟨n, w, f⟩ := t
  obtain ⟨n', w', f'⟩ := t'
  have hf : f = f' := Option.some.inj (h2.symm.trans h2')
  cases n <;> cases n' <;> simp only [Bool.false_eq_true, if_false, if_true] at k3
  · obtain rfl := String.toList_injective (by simpa using k3)
    have hw : w = w' := Option.some.inj (h1.symm.trans h1')
    rw [hf, hw]
  · exact (hminus h1 (by simpa using k3)).elim
  · exact (hminus h1' (by simpa using k3.symm)).elim
  · obtain rfl := String.toList_injective (by simpa using k3)
    have hw : w = w' := Option.some.inj (h1.symm.trans h1')
    rw [hf, hw]

/-- Numbers with the same text. -/
theorem near_of_text {x y : ℝ} (h : strElem (.float (.fin x)) = strElem (.float (.fin y))) :
    |x - y| ≤ 1 / 1000 := by
  obtain ⟨t, ht, h1⟩ := Props.C63_number x
  obtain ⟨t', ht', h2⟩ := Props.C63_number y
  rw [h] at ht
  obtain rfl := decimal_text_inj ht ht'
  rw [abs_le] at *
  constructor <;> linarith [h1.1, h1.2, h2.1, h2.2]

/-- Search spaces with the same text. -/
theorem near_of_array {B B' : Bounds d}
    (h : getStrArray (rangeArray B) = getStrArray (rangeArray B')) (i : Fin d) :
    |(B i).1 - (B' i).1| ≤ 1 / 1000 ∧ |(B i).2 - (B' i).2| ≤ 1 / 1000 := by
  have hp : ∀ C : Bounds d, ∃ s, getStrArray (rangeArray C) = .ok s ∧
      wordsOf (tokens s) = (List.ofFn fun i => [(strElem (.float (.fin (C i).1))).toList,
        (strElem (.float (.fin (C i).2))).toList]).flatten := by
    intro C
    obtain ⟨s, h1, h2⟩ := Props.C63_structure.2.1 (List.ofFn fun i =>
      [.float (.fin (C i).1), .float (.fin (C i).2)]) (by
        intro r hr e he
        obtain ⟨i, rfl⟩ := List.mem_ofFn.1 hr
        simp only [List.mem_cons, List.not_mem_nil, or_false] at he
        rcases he with rfl | rfl <;> trivial)
    refine ⟨s, h1, ?_⟩
    rw [h2, words_bracketed, List.map_map, List.map_ofFn]
    congr 2
  obtain ⟨s, h1, h2⟩ := hp B
  obtain ⟨s', h1', h2'⟩ := hp B'
  obtain rfl : s = s' := Except.ok.inj (h1.symm.trans (h.trans h1'))
  have e := h2.symm.trans h2'
  have hrows := List.ofFn_injective (List.eq_iff_flatten_eq.2 ⟨e, by simp [List.map_ofFn, Function.comp_def]⟩)
  have := congrFun hrows i
  simp only [List.cons.injEq, and_true] at this
  exact ⟨near_of_text (String.toList_injective this.1), near_of_text (String.toList_injective this.2)⟩

end Verif.Lemmas
