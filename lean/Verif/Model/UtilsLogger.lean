import Verif.Model.Basic
import Mathlib.Algebra.Order.Floor.Semiring
import Mathlib.Algebra.Ring.Parity

/-!
# `bayeso/utils/utils_logger.py`
-/

namespace Verif.UtilsLogger

/-! ### Loggers -/

/-- The name of a logger, split at its dots. -/
abbrev Name := List String

/-- `logging.getLogger` returns the root logger for the names `''` and `'root'`; its key is the
empty list, which is a prefix of all keys as the root logger is an ancestor of all loggers. -/
def key (name : Name) : Name := if name = [""] ∨ name = ["root"] then [] else name

/-- A logger of the standard library: its level and the levels of its handlers (every handler
writes to the standard error stream). -/
structure Logger where
  level : ℕ
  handlers : List ℕ

/-- All loggers of the process, by key. A name nobody asked for behaves like a logger without level
and handlers. -/
abbrev Registry := Name → Logger

/-- The registry at the start of a process: the root logger has level `WARNING` (30). -/
def fresh : Registry := fun k => ⟨if k = [] then 30 else 0, []⟩

/-- `logging.DEBUG`. -/
def DEBUG : ℕ := 10

/-- The effect of `get_logger` (`utils_logger.py:14-41`): the level of the logger is set, and a new
handler is added. -/
def getLogger (reg : Registry) (str_name : Name) : Registry :=
  Function.update reg (key str_name) ⟨DEBUG, (reg (key str_name)).handlers ++ [DEBUG]⟩

/-- The logger and its ancestors, from the logger to the root. -/
def chain (name : Name) : List Name := (key name).inits.reverse

/-- `Logger.getEffectiveLevel` of the standard library. -/
def effectiveLevel (reg : Registry) (name : Name) : ℕ :=
  ((((chain name).map fun k => (reg k).level).find? (· ≠ 0)).getD 0)

/-- How often a message of the given level is written by a logger (`Logger.log` and
`Logger.callHandlers` of the standard library): once per handler of the logger and of its ancestors;
if there is no handler at all, messages from `WARNING` (30) on are written once. -/
def emissions (reg : Registry) (name : Name) (level : ℕ) : ℕ :=
  if level < effectiveLevel reg name then 0
  else
    let handlers := (chain name).flatMap fun k => (reg k).handlers
    if handlers = [] then (if 30 ≤ level then 1 else 0)
    else (handlers.filter (· ≤ level)).length

/-! ### Rendering -/

/-- Rounding to the nearest integer, to even in the middle. -/
noncomputable def roundHalfEven (y : ℝ) : ℕ :=
  if y - ⌊y⌋₊ < 1 / 2 then ⌊y⌋₊
  else if 1 / 2 < y - ⌊y⌋₊ then ⌊y⌋₊ + 1
  else if Even ⌊y⌋₊ then ⌊y⌋₊ else ⌊y⌋₊ + 1

/-- `f'{elem:.3f}'`. (A negative zero would keep its sign; the model has only one zero.) -/
noncomputable def fmt3 : Flt → String
  | .fin x =>
    let q := roundHalfEven (|x| * 1000)
    (if x < 0 then "-" else "") ++ (q / 1000).repr ++ "." ++
      String.ofList [(q % 1000 / 100).digitChar, (q % 100 / 10).digitChar, (q % 10).digitChar]
  | .pinf => "inf"
  | .ninf => "-inf"
  | .nan => "nan"

/-- An element of an array: a float, or something else with its `str`. -/
inductive Elem
  | float (x : Flt)
  | other (s : String)

/-- An array by its rank; `more` for rank four and above. -/
inductive NpArray
  | d0 (e : Elem)
  | d1 (l : List Elem)
  | d2 (l : List (List Elem))
  | d3 (l : List (List (List Elem)))
  | more (rank : ℕ)

/-- The text of an element (`utils_logger.py:64-67`). -/
noncomputable def strElem : Elem → String
  | .float x => fmt3 x
  | .other s => s

/-- `get_str_array_1d` (`utils_logger.py:44-73`). -/
noncomputable def getStrArray1d (arr : List Elem) : String :=
  let list_str := arr.map strElem
  let str_arr := ", ".intercalate list_str
  "[" ++ str_arr ++ "]"

/-- `get_str_array_2d` (`utils_logger.py:76-97`). -/
noncomputable def getStrArray2d (arr : List (List Elem)) : String :=
  let list_str := arr.map getStrArray1d
  let str_arr := ",\n".intercalate list_str
  "[" ++ str_arr ++ "]"

/-- `get_str_array_3d` (`utils_logger.py:100-121`). -/
noncomputable def getStrArray3d (arr : List (List (List Elem))) : String :=
  let list_str := arr.map getStrArray2d
  let str_arr := ",\n".intercalate list_str
  "[" ++ str_arr ++ "]"

/-- `get_str_array` (`utils_logger.py:124-151`). -/
noncomputable def getStrArray : NpArray → Py String
  | .d1 l => .ok (getStrArray1d l)
  | .d2 l => .ok (getStrArray2d l)
  | .d3 l => .ok (getStrArray3d l)
  | _ => .error .notImplemented

/-- A value of a dictionary of hyperparameters. -/
inductive Val
  | array (a : NpArray)
  | float (x : Flt)
  | other (s : String)

/-- The text of a value (`utils_logger.py:172-178`). -/
noncomputable def strVal : Val → Py String
  | .array a => getStrArray a
  | .float x => .ok (fmt3 x)
  | .other s => .ok s

/-- `get_str_hyps` (`utils_logger.py:154-184`). The dictionary is given by its items in their
order. -/
noncomputable def getStrHyps (hyps : List (String × Val)) : Py String := do
  let list_str ← hyps.mapM fun (key, val) => do
    let str_val ← strVal val
    return "'" ++ key ++ "': " ++ str_val
  let str_hyps := ", ".intercalate list_str
  return "{" ++ str_hyps ++ "}"

end Verif.UtilsLogger
