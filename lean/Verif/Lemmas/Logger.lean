import Std.Data.String.ToNat
import Verif.Spec.Logger
import Mathlib.Tactic.Linarith
import Mathlib.Tactic.FieldSimp
import Mathlib.Tactic.NormNum
import Mathlib.Tactic.Ring

/-! Rendering and loggers. -/

namespace Verif.Lemmas

open Verif.Spec Verif.UtilsLogger

/-! ### Reading -/

/-- The rest of a text begins with something that ends a word. -/
def Ends (l : List Char) : Prop :=
  ∀ c t, l = c :: t → c = '[' ∨ c = ']' ∨ c = ',' ∨ c = ' ' ∨ c = '\n'

/-- A text reads as `ts` whatever follows. -/
def ReadsAs (w : List Char) (ts : List Token) : Prop :=
  ∀ rest, Ends rest → lexFrom [] (w ++ rest) = ts ++ lexFrom [] rest

theorem read_flushWord {acc rest : List Char} (h : Ends rest) :
    lexFrom acc rest = flushWord acc ++ lexFrom [] rest := by
  cases rest with
  | nil => simp [lexFrom, flushWord]
  | cons c t =>
    rcases h c t rfl with rfl | rfl | rfl | rfl | rfl <;> simp [lexFrom, flushWord]

theorem read_word {w : List Char}
    (hw : ∀ c ∈ w, c ≠ '[' ∧ c ≠ ']' ∧ c ≠ ',' ∧ c ≠ ' ' ∧ c ≠ '\n') :
    ∀ acc rest, lexFrom acc (w ++ rest) = lexFrom (acc ++ w) rest := by
  induction w with
  | nil => simp
  | cons c t ih =>
    intro acc rest
    obtain ⟨h1, h2, h3, h4, h5⟩ := hw c (by simp)
    rw [List.cons_append, lexFrom, if_neg h1, if_neg h2, if_neg h3, if_neg (by tauto),
      ih fun c hc => hw c (by simp [hc])]
    simp

theorem plain_reads {s : String} (h : Plain s) : ReadsAs s.toList [.word s.toList] := by
  intro rest hr
  rw [read_word h.2, List.nil_append, read_flushWord hr]
  obtain ⟨h1, -⟩ := h
  cases hs : s.toList with
  | nil => exact absurd hs h1
  | cons c t => rfl

theorem reads_join {sep : List Char} (hsep : sep = [',', ' '] ∨ sep = [',', '\n']) :
    ∀ {ws : List (List Char)} {tss : List (List Token)}, List.Forall₂ ReadsAs ws tss →
      ReadsAs (sep.intercalate ws) ([Token.comma].intercalate tss)
  | [], _, .nil => fun rest _ => by simp
  | [w], _, .cons h .nil => by simpa using h
  | w :: w' :: ws, _, .cons (b := ts) (l₂ := tss) h ht => by
    cases ht with
    | cons h' ht' =>
      have ih := reads_join hsep (.cons h' ht')
      intro rest hr
      rw [List.intercalate_cons_cons, List.intercalate_cons_cons, List.append_assoc,
        List.append_assoc, h _ (by
          intro c t hc
          rcases hsep with rfl | rfl <;> · simp at hc; simp [hc.1.symm])]
      have := ih rest hr
      rcases hsep with rfl | rfl <;> simp [lexFrom, flushWord, this]

theorem reads_bracketed {sep : String} (hsep : sep = ", " ∨ sep = ",\n") {ws : List String}
    {tss : List (List Token)} (h : List.Forall₂ ReadsAs (ws.map String.toList) tss) :
    ReadsAs ("[" ++ sep.intercalate ws ++ "]").toList (bracketed tss) := by
  intro rest hr
  have hs : sep.toList = [',', ' '] ∨ sep.toList = [',', '\n'] := by
    rcases hsep with rfl | rfl
    · exact .inl rfl
    · exact .inr rfl
  have h1 := reads_join hs h (']' :: rest) (by rintro c t h; simp at h; simp [h.1.symm])
  simp only [String.toList_append, String.toList_intercalate, List.append_assoc, bracketed]
  have e1 : "[".toList = ['['] := rfl
  have e2 : "]".toList = [']'] := rfl
  rw [e1, e2]
  simp only [List.cons_append, List.nil_append]
  rw [lexFrom, if_pos rfl, h1, lexFrom, if_neg (by decide), if_pos rfl]
  simp [flushWord]

theorem forall₂_map {α β γ : Type} {R : β → γ → Prop} {f : α → β} {g : α → γ} {l : List α}
    (h : ∀ a ∈ l, R (f a) (g a)) : List.Forall₂ R (l.map f) (l.map g) := by
  induction l with
  | nil => exact .nil
  | cons a t ih => exact .cons (h a (by simp)) (ih fun b hb => h b (by simp [hb]))

theorem digit_plain {c : Char} (h : c.isDigit) :
    c ≠ '[' ∧ c ≠ ']' ∧ c ≠ ',' ∧ c ≠ ' ' ∧ c ≠ '\n' ∧ c ≠ '\'' := by
  refine ⟨?_, ?_, ?_, ?_, ?_, ?_⟩ <;> · rintro rfl; exact absurd h (by decide)

theorem digitChar_digit {n : ℕ} (h : n < 10) : n.digitChar.isDigit := by
  rw [Nat.isDigit_digitChar]
  simpa using h

theorem fmt3_chars (x : Flt) : (fmt3 x).toList ≠ [] ∧
    ∀ c ∈ (fmt3 x).toList, c ≠ '[' ∧ c ≠ ']' ∧ c ≠ ',' ∧ c ≠ ' ' ∧ c ≠ '\n' ∧ c ≠ '\'' := by
  cases x with
  | fin x =>
    constructor
    · simp [fmt3]
    · intro c hc
      simp only [fmt3, String.toList_append, List.mem_append, Nat.toList_repr,
        String.toList_ofList, List.mem_cons, List.not_mem_nil, or_false] at hc
      rcases hc with ((hc | hc) | hc) | hc | hc | hc
      · split at hc
        · have : c = '-' := by simpa using hc
          subst this
          decide
        · simp at hc
      · exact digit_plain (Nat.isDigit_of_mem_toDigits (by norm_num) (by norm_num) hc)
      · have : c = '.' := by simpa using hc
        subst this
        decide
      all_goals
        subst hc
        exact digit_plain (digitChar_digit (by omega))
  | pinf => exact ⟨by decide, by decide⟩
  | ninf => exact ⟨by decide, by decide⟩
  | nan => exact ⟨by decide, by decide⟩

theorem elem_reads {e : Elem} (h : PlainElem e) :
    ReadsAs (strElem e).toList [.word (strElem e).toList] := by
  cases e with
  | float x =>
    obtain ⟨h1, h2⟩ := fmt3_chars x
    exact plain_reads ⟨h1, fun c hc => by
      obtain ⟨a, b, c', d, e, -⟩ := h2 c hc
      exact ⟨a, b, c', d, e⟩⟩
  | other s => exact plain_reads h

theorem reads_tokens {s : String} {ts : List Token} (h : ReadsAs s.toList ts) : tokens s = ts := by
  have := h [] (by rintro c t h; cases h)
  simpa [tokens, lexFrom, flushWord] using this

/-! ### Rounding -/

theorem roundHalfEven_near {y : ℝ} (hy : 0 ≤ y) : |y - roundHalfEven y| ≤ 1 / 2 := by
  have h1 := Nat.floor_le hy
  have h2 := Nat.lt_floor_add_one y
  unfold roundHalfEven
  rw [abs_le]
  split
  · constructor <;> linarith
  · split
    · push_cast
      constructor <;> linarith
    · split
      · constructor <;> linarith
      · push_cast
        constructor <;> linarith

/-! ### Quotes -/

theorem cut_word {w rest : List Char} (h : '\'' ∉ w) : cut (w ++ '\'' :: rest) = w :: cut rest := by
  induction w with
  | nil => simp [cut]
  | cons c t ih =>
    rw [List.cons_append, cut, if_neg (by rintro rfl; simp at h), ih (by simp_all)]

theorem cut_end {w : List Char} (h : '\'' ∉ w) : cut w = [w] := by
  induction w with
  | nil => rfl
  | cons c t ih =>
    rw [cut, if_neg (by rintro rfl; simp at h), ih (by simp_all)]

theorem readItems_cons {k v : List Char} {rest : List (List Char)} (h : rest ≠ []) :
    readItems (k :: v :: rest) =
      (String.ofList k, String.ofList (v.drop 2).dropLast.dropLast) :: readItems rest := by
  cases rest with
  | nil => exact absurd rfl h
  | cons a t => rfl

theorem noquote_append {a b : String} (ha : NoQuote a) (hb : NoQuote b) : NoQuote (a ++ b) := by
  unfold NoQuote at *
  rw [String.toList_append, List.mem_append]
  tauto

theorem noquote_join {sep : String} (hs : NoQuote sep) :
    ∀ {l : List String}, (∀ a ∈ l, NoQuote a) → NoQuote (sep.intercalate l) := by
  intro l h
  unfold NoQuote at *
  rw [String.toList_intercalate]
  induction l with
  | nil => simp
  | cons a t ih =>
    cases t with
    | nil => simpa using h a
    | cons b t =>
      simp only [List.map_cons] at ih ⊢
      rw [List.intercalate_cons_cons, List.mem_append, List.mem_append]
      have h1 := h a (by simp)
      have h2 := ih fun c hc => h c (by simp [hc])
      tauto

theorem noquote_bracket {sep : String} (hs : NoQuote sep) {l : List String}
    (h : ∀ a ∈ l, NoQuote a) : NoQuote ("[" ++ sep.intercalate l ++ "]") :=
  noquote_append (noquote_append (by decide) (noquote_join hs h)) (by decide)

theorem noquote_elem {e : Elem} (h : ∀ s, e = .other s → NoQuote s) : NoQuote (strElem e) := by
  cases e with
  | float x => exact fun hc => (fmt3_chars x).2 _ hc |>.2.2.2.2.2 rfl
  | other s => exact h s rfl

theorem noquote_1d {l : List Elem} (h : ∀ e ∈ l, ∀ s, e = .other s → NoQuote s) :
    NoQuote (getStrArray1d l) := by
  refine noquote_bracket (by decide) fun a ha => ?_
  obtain ⟨e, he, rfl⟩ := List.mem_map.1 ha
  exact noquote_elem (h e he)

theorem noquote_2d {l : List (List Elem)} (h : ∀ r ∈ l, ∀ e ∈ r, ∀ s, e = .other s → NoQuote s) :
    NoQuote (getStrArray2d l) := by
  refine noquote_bracket (by decide) fun a ha => ?_
  obtain ⟨e, he, rfl⟩ := List.mem_map.1 ha
  exact noquote_1d (h e he)

theorem noquote_3d {l : List (List (List Elem))}
    (h : ∀ m ∈ l, ∀ r ∈ m, ∀ e ∈ r, ∀ s, e = .other s → NoQuote s) :
    NoQuote (getStrArray3d l) := by
  refine noquote_bracket (by decide) fun a ha => ?_
  obtain ⟨e, he, rfl⟩ := List.mem_map.1 ha
  exact noquote_2d (h e he)

theorem strVal_plain {v : Val} (h : PlainVal v) : ∃ s, strVal v = .ok s ∧ NoQuote s := by
  cases v with
  | array a =>
    cases a with
    | d0 e => exact h.elim
    | d1 l => exact ⟨_, rfl, noquote_1d h⟩
    | d2 l => exact ⟨_, rfl, noquote_2d h⟩
    | d3 l => exact ⟨_, rfl, noquote_3d h⟩
    | more r => exact h.elim
  | float x => exact ⟨_, rfl, fun hc => (fmt3_chars x).2 _ hc |>.2.2.2.2.2 rfl⟩
  | other s => exact ⟨s, rfl, h⟩

theorem valText {v : Val} {t : String} (h : strVal v = .ok t) : ValText v t := by
  cases v with
  | array a => exact h
  | float x => exact (Except.ok.inj h).symm
  | other s => exact (Except.ok.inj h).symm

theorem strVal_cases (v : Val) : (∃ s, strVal v = .ok s) ∨ strVal v = .error .notImplemented := by
  cases v with
  | array a => cases a <;> first | exact .inl ⟨_, rfl⟩ | exact .inr rfl
  | float x => exact .inl ⟨_, rfl⟩
  | other s => exact .inl ⟨_, rfl⟩

theorem read_items {p : String × String} {l : List (String × String)}
    (h : ∀ q ∈ p :: l, NoQuote q.1 ∧ NoQuote q.2) :
    ∃ r, (", ".intercalate ((p :: l).map fun q => "'" ++ q.1 ++ "': " ++ q.2)).toList ++ ['}'] =
        '\'' :: r ∧ cut r ≠ [] ∧ readItems (cut r) = p :: l := by
  have e1 : "'".toList = ['\''] := rfl
  have e2 : "': ".toList = ['\'', ':', ' '] := rfl
  have e3 : ", ".toList = [',', ' '] := rfl
  rw [String.toList_intercalate]
  induction l generalizing p with
  | nil =>
    obtain ⟨h1, h2⟩ := h p (by simp)
    refine ⟨p.1.toList ++ '\'' :: ([':', ' '] ++ p.2.toList ++ ['}']), ?_, ?_⟩
    · simp [e1, e2]
    · unfold NoQuote at h1 h2
      rw [cut_word h1, cut_end (by simp [h2])]
      refine ⟨by simp, ?_⟩
      have : ([':', ' '] ++ p.2.toList ++ ['}']).drop 2 = p.2.toList ++ ['}'] := rfl
      simp only [readItems, this, List.dropLast_concat, String.ofList_toList]
  | cons p' t ih =>
    obtain ⟨h1, h2⟩ := h p (by simp)
    obtain ⟨r, hr1, hr0, hr2⟩ := ih (p := p') fun q hq => h q (by simp at hq ⊢; tauto)
    refine ⟨p.1.toList ++ '\'' :: ([':', ' '] ++ p.2.toList ++ [','] ++ [' '] ++ '\'' :: r), ?_, ?_⟩
    · rw [← hr1]
      simp only [List.map_cons, e3]
      rw [List.intercalate_cons_cons]
      simp [e1, e2]
    · unfold NoQuote at h1 h2
      rw [cut_word h1, cut_word (by simp [h2]), readItems_cons hr0, hr2]
      refine ⟨by simp, ?_⟩
      have : ([':', ' '] ++ p.2.toList ++ [','] ++ [' ']).drop 2 = p.2.toList ++ [','] ++ [' '] := rfl
      simp only [this, List.dropLast_concat, String.ofList_toList]

theorem digits_toNat? {q : ℕ} : (String.ofList [(q % 1000 / 100).digitChar, (q % 100 / 10).digitChar,
    (q % 10).digitChar]).toNat? = some (q % 1000) := by
  have hd : ∀ n, n < 10 → n.digitChar.isDigit = true ∧ n.digitChar ≠ '_' := by decide
  have ha := hd (q % 1000 / 100) (by omega)
  have hb := hd (q % 100 / 10) (by omega)
  have hc := hd (q % 10) (by omega)
  rw [String.toNat?_eq_some_ofDigitChars]
  · rw [String.toList_ofList, List.filter_bne_eq_self_of_not_mem]
    · rw [Nat.ofDigitChars_cons_digitChar_of_lt_ten (by omega),
        Nat.ofDigitChars_cons_digitChar_of_lt_ten (by omega),
        Nat.ofDigitChars_cons_digitChar_of_lt_ten (by omega), Nat.ofDigitChars_nil]
      congr 1
      omega
    · simp only [List.mem_cons, List.not_mem_nil, or_false, not_or]
      exact ⟨ha.2.symm, hb.2.symm, hc.2.symm⟩
  · refine String.isNat_of_isDigit ?_ ?_
    · intro h
      have := congrArg String.toList h
      simp at this
    · simp only [String.toList_ofList, List.mem_cons, List.not_mem_nil, or_false]
      rintro c (rfl | rfl | rfl)
      exacts [ha.1, hb.1, hc.1]

/-! ### Loggers -/

theorem after_concat (calls : List Name) (c : Name) : after (calls ++ [c]) = getLogger (after calls) c := by
  simp [after]

theorem after_handlers (calls : List Name) (k : Name) :
    (after calls k).handlers = List.replicate (calls.countP fun c => key c = k) DEBUG := by
  induction calls using List.reverseRecOn with
  | nil => rfl
  | append_singleton l c ih =>
    rw [after_concat, getLogger, List.countP_append, List.countP_singleton]
    by_cases h : key c = k
    · subst h
      rw [Function.update_self]
      simp only [decide_true, if_true, ih, List.replicate_add]
      rfl
    · rw [Function.update_of_ne (Ne.symm h), ih]
      simp [h]

theorem after_level {calls : List Name} {k : Name} (h : ∃ c ∈ calls, key c = k) :
    (after calls k).level = DEBUG := by
  induction calls using List.reverseRecOn with
  | nil => simp at h
  | append_singleton l c ih =>
    rw [after_concat, getLogger]
    by_cases hc : key c = k
    · subst hc
      rw [Function.update_self]
    · rw [Function.update_of_ne (Ne.symm hc)]
      refine ih ?_
      obtain ⟨a, ha, hk⟩ := h
      rcases List.mem_append.1 ha with ha | ha
      · exact ⟨a, ha, hk⟩
      · rw [List.mem_singleton] at ha
        subst ha
        exact absurd hk hc

theorem nodup_inits : ∀ l : Name, l.inits.Nodup
  | [] => by simp
  | a :: l => by
    rw [List.inits_cons, List.nodup_cons]
    exact ⟨by simp, (nodup_inits l).map fun x y h => by simpa using h⟩

theorem getLast_inits : ∀ l : Name, l.inits.getLast? = some l
  | [] => by simp
  | a :: l => by
    rw [List.inits_cons, List.getLast?_cons, List.getLast?_map, getLast_inits l]
    rfl

theorem sum_countP {L : List Name} (hL : L.Nodup) (calls : List Name) :
    (L.map fun k => calls.countP fun c => key c = k).sum = calls.countP fun c => key c ∈ L := by
  induction calls with
  | nil => simp
  | cons c t ih =>
    simp only [List.countP_cons, List.sum_map_add, ih]
    congr 1
    have : (L.map fun k => if decide (key c = k) = true then 1 else 0).sum = L.count (key c) := by
      clear hL ih
      induction L with
      | nil => rfl
      | cons a L ih =>
        rw [List.map_cons, List.sum_cons, ih, List.count_cons, Nat.add_comm]
        congr 1
        by_cases h : key c = a
        · simp [h]
        · simp [h, Ne.symm h]
    rw [this, List.Nodup.count hL]
    simp

theorem key_prefix (c name : Name) (hn : name ≠ [""] ∧ name ≠ ["root"]) (hc : c ≠ []) :
    key c <+: key name ↔ Above c name := by
  have hk : key name = name := by unfold key; rw [if_neg (by tauto)]
  rw [hk]
  unfold key Above
  by_cases h : c = [""] ∨ c = ["root"]
  · rw [if_pos h]
    simp only [List.nil_prefix, true_iff]
    tauto
  · rw [if_neg h]
    tauto

end Verif.Lemmas
