import Verif.Lemmas.Logger

/-! C62, C63: loggers and rendering. -/

namespace Verif.Props

open Verif.Spec Verif.Lemmas Verif.UtilsLogger

/-- C62: how often a message is written. After any calls of `get_logger`, one of them for `name`, a
message of level `DEBUG` or above of that logger is written once for every call that asked for the
logger itself or for one of its ancestors. (A dotted name has at least one part, so the calls are
not empty lists.) -/
theorem C62_count {calls : List Name} {name : Name} (h : name ∈ calls)
    (hn : name ≠ [""] ∧ name ≠ ["root"]) (hne : ∀ c ∈ calls, c ≠ []) {level : ℕ}
    (hl : 10 ≤ level) :
    emissions (after calls) name level = calls.countP fun c => Above c name := by
  have hkey : key name = name := by unfold key; rw [if_neg (by tauto)]
  have hlev : effectiveLevel (after calls) name = 10 := by
    have h1 : (after calls (key name)).level = DEBUG := after_level ⟨name, h, rfl⟩
    obtain ⟨l, hl⟩ : ∃ l, chain name = key name :: l := by
      unfold chain
      rw [← List.head?_eq_some_iff, List.head?_reverse, getLast_inits]
    rw [effectiveLevel, hl, List.map_cons, h1]
    rfl
  have hlen : ((chain name).flatMap fun k => (after calls k).handlers) =
      List.replicate (calls.countP fun c => Above c name) DEBUG := by
    rw [List.eq_replicate_iff]
    constructor
    · rw [List.length_flatMap]
      simp only [after_handlers, List.length_replicate]
      rw [sum_countP (by unfold chain; exact List.nodup_reverse.2 (nodup_inits _))]
      refine List.countP_congr fun c hc => ?_
      rw [decide_eq_true_iff, decide_eq_true_iff, chain, List.mem_reverse, List.mem_inits]
      exact key_prefix c name hn (hne c hc)
    · intro b hb
      obtain ⟨k, -, hb⟩ := List.mem_flatMap.1 hb
      rw [after_handlers] at hb
      exact (List.mem_replicate.1 hb).2
  have hpos : 0 < calls.countP fun c => Above c name :=
    List.countP_pos_iff.2 ⟨name, h, by simp [Above]⟩
  unfold emissions
  rw [hlev, if_neg (by omega)]
  simp only [hlen]
  rw [if_neg (by rw [List.replicate_eq_nil_iff]; omega), List.filter_replicate]
  simp [DEBUG, hl]

/-- C62 as stated fails: after `k` calls for the same name, as `k` model objects of the same kind
make them, every message is written `k` times. -/
theorem C62_violated {name : Name} (hn : name ≠ [""] ∧ name ≠ ["root"]) (hne : name ≠ []) {k : ℕ}
    (hk : 1 ≤ k) {level : ℕ} (hl : 10 ≤ level) :
    emissions (after (List.replicate k name)) name level = k := by
  rw [C62_count (List.mem_replicate.2 ⟨by omega, rfl⟩) hn
    (fun c hc => by rw [(List.mem_replicate.1 hc).2]; exact hne) hl]
  simp [List.countP_replicate, Above]

/-- C62, the part that holds: a message is written exactly once if only one call asked for the
logger or an ancestor of it. Missing: further calls, see `C62_violated`. -/
theorem C62_once_partial {calls : List Name} {name : Name} (h : name ∈ calls)
    (hn : name ≠ [""] ∧ name ≠ ["root"]) (hne : ∀ c ∈ calls, c ≠ []) {level : ℕ}
    (hl : 10 ≤ level) (hone : (calls.filter fun c => Above c name) = [name]) :
    emissions (after calls) name level = 1 := by
  rw [C62_count h hn hne hl, List.countP_eq_length_filter, hone]
  rfl

/-- C62: calls of `get_logger` do not change what other loggers write: a logger that no call asked for,
neither itself nor an ancestor of it, has level `WARNING` (30) as at the start of the process, and
writes messages of that level or above once. -/
theorem C62_others {calls : List Name} {name : Name} (hn : name ≠ [""] ∧ name ≠ ["root"])
    (hne : ∀ c ∈ calls, c ≠ []) (h : ∀ c ∈ calls, ¬ Above c name) (level : ℕ) :
    effectiveLevel (after calls) name = 30 ∧
    emissions (after calls) name level = if 30 ≤ level then 1 else 0 := by
  have hsame : ∀ {k : Name} (calls : List Name) (reg : Registry), (∀ c ∈ calls, key c ≠ k) →
      calls.foldl getLogger reg k = reg k := by
    intro k calls
    induction calls with
    | nil => exact fun _ _ => rfl
    | cons c t ih =>
      intro reg hc
      rw [List.foldl_cons, ih _ fun c' hc' => hc c' (by simp [hc']), getLogger,
        Function.update_of_ne (hc c (by simp)).symm]
  have hk : ∀ k ∈ chain name, after calls k = fresh k := by
    intro k hk
    refine hsame calls fresh fun c hc he => h c hc ?_
    rw [chain, List.mem_reverse, List.mem_inits] at hk
    exact (key_prefix c name hn (hne c hc)).1 (he ▸ hk)
  have hmap : (chain name).map (fun k => (after calls k).level) =
      (chain name).map fun k => if k = [] then 30 else 0 :=
    List.map_congr_left fun k hk' => by rw [hk k hk']; rfl
  have hlev : effectiveLevel (after calls) name = 30 := by
    unfold effectiveLevel
    rw [hmap]
    cases hf : ((chain name).map fun k => if k = [] then 30 else 0).find? (· ≠ 0) with
    | none =>
      have := List.find?_eq_none.1 hf 30 (List.mem_map.2 ⟨[], by simp [chain], rfl⟩)
      simp at this
    | some v =>
      have h1 := List.find?_some hf
      obtain ⟨k, -, rfl⟩ := List.mem_map.1 (List.mem_of_find?_eq_some hf)
      by_cases hk0 : k = []
      · simp [hk0]
      · simp [hk0] at h1
  refine ⟨hlev, ?_⟩
  have hh : ((chain name).flatMap fun k => (after calls k).handlers) = [] := by
    rw [List.flatMap_eq_nil_iff]
    intro k hk'
    rw [hk k hk']
    rfl
  unfold emissions
  rw [hlev]
  simp only [hh, if_true]
  by_cases hl : 30 ≤ level
  · rw [if_neg (by omega)]
  · rw [if_pos (by omega), if_neg hl]

/-- Another library of the process. -/
example : effectiveLevel (after [["gp"], ["bo_w_gp"]]) ["scipy", "optimize"] = 30 ∧
    emissions (after [["gp"], ["bo_w_gp"]]) ["scipy", "optimize"] 20 = 0 := by
  have := C62_others (calls := [["gp"], ["bo_w_gp"]]) (name := ["scipy", "optimize"]) (by decide)
    (by decide) (by decide) 20
  exact this

/-- C62 at work: the loggers of the modules, then two Gaussian process models and one random forest:
the first two share a logger. -/
example :
    let calls : List Name := [["gp"], ["gp_kernel"], ["bo_w_gp"], ["bo_w_gp"], ["bo_w_rf"]]
    emissions (after calls) ["bo_w_gp"] 10 = 2 ∧ emissions (after calls) ["bo_w_rf"] 10 = 1 := by
  constructor
  · rw [C62_count (by decide) (by decide) (by decide) (by decide)]
    decide
  · exact C62_once_partial (by decide) (by decide) (by decide) (by decide) (by decide)

/-- C63 for arrays. The text of an array reads as one pair of brackets per axis (and per row, and
per matrix), with every entry exactly once and in order. Entries that are floats need no
assumption; other entries must render as one word. -/
theorem C63_structure :
    (∀ l : List Elem, (∀ e ∈ l, PlainElem e) →
      ∃ s, getStrArray (.d1 l) = .ok s ∧
        tokens s = bracketed (l.map fun e => [.word (strElem e).toList])) ∧
    (∀ l : List (List Elem), (∀ r ∈ l, ∀ e ∈ r, PlainElem e) →
      ∃ s, getStrArray (.d2 l) = .ok s ∧
        tokens s = bracketed (l.map fun r => bracketed (r.map fun e => [.word (strElem e).toList]))) ∧
    (∀ l : List (List (List Elem)), (∀ m ∈ l, ∀ r ∈ m, ∀ e ∈ r, PlainElem e) →
      ∃ s, getStrArray (.d3 l) = .ok s ∧
        tokens s = bracketed (l.map fun m => bracketed (m.map fun r =>
          bracketed (r.map fun e => [.word (strElem e).toList])))) := by
  have h1 : ∀ l : List Elem, (∀ e ∈ l, PlainElem e) → ReadsAs (getStrArray1d l).toList
      (bracketed (l.map fun e => [.word (strElem e).toList])) := by
    intro l h
    refine reads_bracketed (.inl rfl) ?_
    rw [List.map_map]
    exact forall₂_map fun e he => elem_reads (h e he)
  have h2 : ∀ l : List (List Elem), (∀ r ∈ l, ∀ e ∈ r, PlainElem e) → ReadsAs (getStrArray2d l).toList
      (bracketed (l.map fun r => bracketed (r.map fun e => [.word (strElem e).toList]))) := by
    intro l h
    refine reads_bracketed (.inr rfl) ?_
    rw [List.map_map]
    exact forall₂_map fun r hr => h1 r (h r hr)
  refine ⟨fun l h => ⟨_, rfl, reads_tokens (h1 l h)⟩, fun l h => ⟨_, rfl, reads_tokens (h2 l h)⟩,
    fun l h => ⟨_, rfl, reads_tokens ?_⟩⟩
  refine reads_bracketed (.inr rfl) ?_
  rw [List.map_map]
  exact forall₂_map fun m hm => h2 m (h m hm)

/-- C63: a float entry is rendered as a decimal number with three places that is within half a
thousandth of it. -/
theorem C63_number (x : ℝ) : ∃ t : Decimal, t.Text (strElem (.float (.fin x))) ∧
    |x - t.value| ≤ 1 / 2000 := by
  set q := roundHalfEven (|x| * 1000) with hq
  refine ⟨⟨decide (x < 0), q / 1000, q % 1000⟩, ⟨(q / 1000).repr, String.ofList
    [(q % 1000 / 100).digitChar, (q % 100 / 10).digitChar, (q % 10).digitChar], ?_, ?_, ?_, ?_⟩, ?_⟩
  · simp [strElem, fmt3, ← hq]
  · simp
  · simp
  · exact digits_toNat?
  · have h1 := roundHalfEven_near (y := |x| * 1000) (by positivity)
    rw [← hq] at h1
    have h2 : ((q / 1000 : ℕ) : ℝ) + ((q % 1000 : ℕ) : ℝ) / 1000 = q / 1000 := by
      have : ((1000 * (q / 1000) + q % 1000 : ℕ) : ℝ) = q := by exact_mod_cast Nat.div_add_mod q 1000
      push_cast at this
      rw [← this]
      ring
    simp only [Decimal.value]
    rw [h2]
    rw [abs_le] at h1 ⊢
    rcases lt_or_ge x 0 with hx | hx
    · rw [abs_of_neg hx] at h1
      simp only [hx, decide_true, if_true]
      constructor <;> linarith
    · rw [abs_of_nonneg hx] at h1
      simp only [hx.not_gt, decide_false, Bool.false_eq_true, if_false]
      constructor <;> linarith

/-- C63: arrays of any other rank are errors. -/
theorem C63_other_ranks :
    (∀ e, getStrArray (.d0 e) = .error .notImplemented) ∧
    ∀ r, getStrArray (.more r) = .error .notImplemented := ⟨fun _ => rfl, fun _ => rfl⟩

/-- C63 for dictionaries. The text has the items of the dictionary, each exactly once and in order:
the keys, each with the text of its value. -/
theorem C63_hyps {hyps : List (String × Val)} (hk : ∀ p ∈ hyps, NoQuote p.1)
    (hv : ∀ p ∈ hyps, PlainVal p.2) :
    ∃ s, getStrHyps hyps = .ok s ∧
      List.Forall₂ (fun p q => q.1 = p.1 ∧ ValText p.2 q.2) hyps (readDict s) := by
  have : ∃ items : List (String × String),
      List.Forall₂ (fun p q => q.1 = p.1 ∧ ValText p.2 q.2) hyps items ∧
      (∀ p ∈ items, NoQuote p.1 ∧ NoQuote p.2) ∧
      (hyps.mapM fun (key, val) => do
        let str_val ← strVal val
        return "'" ++ key ++ "': " ++ str_val : Py (List String)) =
          .ok (items.map fun p => "'" ++ p.1 ++ "': " ++ p.2) := by
    induction hyps with
    | nil => exact ⟨[], .nil, by simp, rfl⟩
    | cons p t ih =>
      obtain ⟨items, h1, h2, h3⟩ := ih (fun q hq => hk q (by simp [hq])) fun q hq => hv q (by simp [hq])
      obtain ⟨s, h4, h5⟩ := strVal_plain (hv p (by simp))
      refine ⟨(p.1, s) :: items, .cons ⟨rfl, valText h4⟩ h1, ?_, ?_⟩
      · intro q hq
        rcases List.mem_cons.1 hq with rfl | hq
        · exact ⟨hk p (by simp), h5⟩
        · exact h2 q hq
      · obtain ⟨k, v⟩ := p
        rw [List.mapM_cons, h3]
        simp only [h4]
        rfl
  obtain ⟨items, h1, h2, h3⟩ := this
  refine ⟨_, by unfold getStrHyps; rw [h3]; rfl, ?_⟩
  suffices h : readDict ("{" ++ ", ".intercalate (items.map fun p => "'" ++ p.1 ++ "': " ++ p.2) ++ "}")
      = items by rw [h]; exact h1
  have e1 : "{".toList = ['{'] := rfl
  have e2 : "}".toList = ['}'] := rfl
  cases items with
  | nil => rfl
  | cons p l =>
    obtain ⟨r, hr, -, hr2⟩ := read_items h2
    rw [readDict, String.toList_append, String.toList_append, List.append_assoc, e2, hr, e1,
      cut_word (by decide), List.tail_cons, hr2]

/-- C63: an array of any other rank among the values is an error. -/
theorem C63_hyps_error {hyps : List (String × Val)} {k : String} {a : NpArray}
    (h : (k, .array a) ∈ hyps) (ha : (∃ e, a = .d0 e) ∨ ∃ r, a = .more r) :
    getStrHyps hyps = .error .notImplemented := by
  suffices hm : (hyps.mapM fun (key, val) => do
        let str_val ← strVal val
        return "'" ++ key ++ "': " ++ str_val : Py (List String)) = .error .notImplemented by
    unfold getStrHyps
    rw [hm]
    rfl
  have hval : strVal (.array a) = .error .notImplemented := by
    rcases ha with ⟨e, rfl⟩ | ⟨r, rfl⟩ <;> rfl
  induction hyps with
  | nil => simp at h
  | cons p t ih =>
    rw [List.mapM_cons]
    rcases List.mem_cons.1 h with rfl | h
    · simp only [hval]
      rfl
    · rw [ih h]
      obtain ⟨k', v⟩ := p
      rcases strVal_cases v with ⟨s, hs⟩ | hs <;> simp only [hs] <;> rfl

/-- C63 at work: a table with a number in each row, and the dictionary of hyperparameters of a
Gaussian process. -/
example :
    (∃ s, getStrArray (.d2 [[.float (.fin 1), .other "2"], [.float .nan, .other "3"]]) = .ok s ∧
      tokens s = [.opening, .opening, .word (fmt3 (.fin 1)).toList, .comma, .word ['2'], .closing, .comma,
        .opening, .word ['n', 'a', 'n'], .comma, .word ['3'], .closing, .closing]) ∧
    ∃ s, getStrHyps [("signal", .float (.fin 1)), ("lengthscales", .array (.d1 [.float (.fin 2)])),
        ("noise", .float (.fin 0.01))] = .ok s ∧
      (readDict s).map Prod.fst = ["signal", "lengthscales", "noise"] := by
  constructor
  · refine C63_structure.2.1 _ ?_
    intro r hr e he
    simp only [List.mem_cons, List.not_mem_nil, or_false] at hr
    rcases hr with rfl | rfl <;> simp only [List.mem_cons, List.not_mem_nil, or_false] at he <;>
      rcases he with rfl | rfl <;> simp [PlainElem, Plain]
  · obtain ⟨s, h1, h2⟩ := C63_hyps
      (hyps := [("signal", .float (.fin 1)), ("lengthscales", .array (.d1 [.float (.fin 2)])),
        ("noise", .float (.fin 0.01))])
      (by
        intro p hp
        simp only [List.mem_cons, List.not_mem_nil, or_false] at hp
        rcases hp with rfl | rfl | rfl <;> decide)
      (by
        intro p hp
        simp only [List.mem_cons, List.not_mem_nil, or_false] at hp
        rcases hp with rfl | rfl | rfl <;> simp [PlainVal])
    refine ⟨s, h1, ?_⟩
    generalize readDict s = items at h2
    cases h2 with
    | cons a h2 => cases h2 with
      | cons b h2 => cases h2 with
        | cons c h2 => cases h2 with
          | nil => simp [a.1, b.1, c.1]

end Verif.Props
