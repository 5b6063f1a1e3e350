import Verif.Model.UtilsLogger

/-! Vocabulary of C62 and C63. -/

namespace Verif.Spec

open Verif.UtilsLogger

/-! ### Loggers -/

/-- The registry after some calls of `get_logger`, from the start of the process. -/
def after (calls : List Name) : Registry := calls.foldl getLogger fresh

/-- The logger of one name is the logger of the other, or an ancestor of it: the root logger, or one
whose dotted name is the beginning of the other's. -/
def Above (c name : Name) : Prop := c = [""] ∨ c = ["root"] ∨ c <+: name

instance (c name : Name) : Decidable (Above c name) :=
  inferInstanceAs (Decidable (_ ∨ _ ∨ _))

/-! ### Reading a rendered array

The rendered text is cut into tokens by a reader that knows nothing about arrays. -/

/-- Brackets, commas, and the words between them. -/
inductive Token
  | opening
  | closing
  | comma
  | word (w : List Char)
deriving DecidableEq

/-- The token a word makes, if there is one. -/
def flushWord : List Char → List Token
  | [] => []
  | w => [.word w]

/-- Reads a text; `acc` is the word begun so far. Spaces and line breaks end a word. -/
def lexFrom : List Char → List Char → List Token
  | acc, [] => flushWord acc
  | acc, c :: rest =>
    if c = '[' then flushWord acc ++ .opening :: lexFrom [] rest
    else if c = ']' then flushWord acc ++ .closing :: lexFrom [] rest
    else if c = ',' then flushWord acc ++ .comma :: lexFrom [] rest
    else if c = ' ' ∨ c = '\n' then flushWord acc ++ lexFrom [] rest
    else lexFrom (acc ++ [c]) rest

/-- The tokens of a text. -/
def tokens (s : String) : List Token := lexFrom [] s.toList

/-- Parts separated by commas, in one pair of brackets. -/
def bracketed (parts : List (List Token)) : List Token :=
  .opening :: [Token.comma].intercalate parts ++ [.closing]

/-- A text that is one word. -/
def Plain (s : String) : Prop :=
  s.toList ≠ [] ∧ ∀ c ∈ s.toList, c ≠ '[' ∧ c ≠ ']' ∧ c ≠ ',' ∧ c ≠ ' ' ∧ c ≠ '\n'

/-- The elements that are not floats render as one word. -/
def PlainElem : Elem → Prop
  | .float _ => True
  | .other s => Plain s

/-- What a decimal text with three places says: sign, whole part, thousandths. -/
structure Decimal where
  negative : Bool
  whole : ℕ
  thousandths : ℕ

/-- The number a decimal stands for. -/
noncomputable def Decimal.value (t : Decimal) : ℝ :=
  (if t.negative then -1 else 1) * (t.whole + t.thousandths / 1000)

/-- Its text: an optional minus sign, the whole part, a point, three digits. `String.toNat?` is the
decimal reader of the standard library. -/
def Decimal.Text (t : Decimal) (s : String) : Prop :=
  ∃ a b : String, s = (if t.negative then "-" else "") ++ a ++ "." ++ b ∧ b.length = 3 ∧
    a.toNat? = some t.whole ∧ b.toNat? = some t.thousandths

/-! ### Reading a rendered dictionary -/

/-- A text cut at every single quote. -/
def cut : List Char → List (List Char)
  | [] => [[]]
  | c :: rest =>
    if c = '\'' then [] :: cut rest
    else match cut rest with
      | [] => [[c]]
      | w :: ws => (c :: w) :: ws

/-- Reading the parts from the first key on: a key, then a colon, a space and a value, then a comma
and a space before the next key or one closing brace at the end. -/
def readItems : List (List Char) → List (String × String)
  | [k, v] => [(String.ofList k, String.ofList (v.drop 2).dropLast)]
  | k :: v :: rest =>
    (String.ofList k, String.ofList (v.drop 2).dropLast.dropLast) :: readItems rest
  | _ => []

/-- The items of a rendered dictionary, keys and values as texts. -/
def readDict (s : String) : List (String × String) := readItems (cut s.toList).tail

/-- No single quote in a text. -/
def NoQuote (s : String) : Prop := '\'' ∉ s.toList

instance (s : String) : Decidable (NoQuote s) := inferInstanceAs (Decidable ('\'' ∉ s.toList))

/-- A value that can be rendered (arrays of rank one to three), and that brings no single quote
with it. -/
def PlainVal : Val → Prop
  | .array (.d1 l) => ∀ e ∈ l, ∀ s, e = .other s → NoQuote s
  | .array (.d2 l) => ∀ r ∈ l, ∀ e ∈ r, ∀ s, e = .other s → NoQuote s
  | .array (.d3 l) => ∀ m ∈ l, ∀ r ∈ m, ∀ e ∈ r, ∀ s, e = .other s → NoQuote s
  | .array _ => False
  | .float _ => True
  | .other s => NoQuote s

/-- The text a value is to have: that of the array, that of the number, or its `str`. -/
def ValText : Val → String → Prop
  | .array a, t => getStrArray a = .ok t
  | .float x, t => t = strElem (.float x)
  | .other s, t => t = s

end Verif.Spec
