import Verif.Model.Trees

/-! The process pool of `predict_by_trees` (`bayeso/trees/trees_common.py:518-534`):
`multiprocessing.Pool(num_cpu).starmap(...)`.

The pool belongs to Python's standard library; the lines cited as `pool.py` are those of
`multiprocessing/pool.py` in CPython 3.11. Modelled are the batches, the task queue, the workers
that compute at the same time, the result queue and the object that collects the results; every
interleaving of their actions is an execution. Not modelled: workers that die, failures of pickling,
and the identity of the worker that computes a batch (it does not matter to the code). -/

namespace Verif.Pool

open Constants Trees

variable {α β : Type}

/-- The number of arguments per batch (`_map_async`, `pool.py:480-485`): `divmod(n, workers * 4)`,
rounded up; no arguments give `0`. -/
def chunksize (n workers : ℕ) : ℕ :=
  if n = 0 then 0
  else n / (workers * 4) + (if n % (workers * 4) ≠ 0 then 1 else 0)

/-- The batches (`_get_tasks`, `pool.py:634-640`): `islice(it, size)` until it is empty. -/
def getTasks (size : ℕ) (l : List α) : List (List α) :=
  if h : size = 0 ∨ l = [] then []
  else l.take size :: getTasks size (l.drop size)
termination_by l.length
decreasing_by
  have : l ≠ [] := fun e => h (.inr e)
  have := List.length_pos_iff.2 this
  simp only [List.length_drop]
  omega

/-- The object that collects the results (`MapResult`, `pool.py:794-828`). An error in `value` is
`_success = False` with the exception in `_value`; `none` is `None`. -/
structure MapResult (β : Type) where
  chunksize : ℕ
  number_left : ℕ
  value : Py (List (Option β))

/-- `MapResult.__init__` (`pool.py:796-807`). -/
def MapResult.init (chunksize length : ℕ) : MapResult β where
  chunksize := chunksize
  number_left :=
    if chunksize = 0 then 0 else length / chunksize + (if length % chunksize ≠ 0 then 1 else 0)
  value := .ok (List.replicate length none)

/-- `MapResult._set` (`pool.py:809-828`): the results of a batch go to the places of its arguments,
and only the first exception is stored. -/
def MapResult.set (r : MapResult β) (i : ℕ) (success_result : Py (List β)) : MapResult β :=
  { r with
    number_left := r.number_left - 1
    value := match r.value, success_result with
      | .ok v, .ok result => .ok (v.take (i * r.chunksize) ++ result.map some ++
          v.drop ((i + 1) * r.chunksize))
      | .ok _, .error e => .error e
      | .error e, _ => .error e }

/-- The state of the pool: the batches not yet started, those being computed, the results not yet
collected (with the number of the batch), and the collecting object. -/
structure St (α β : Type) where
  tasks : List (ℕ × List α)
  running : List (ℕ × List α)
  results : List (ℕ × Py (List β))
  job : MapResult β

/-- The pool after `starmap_async` (`pool.py:377-384`, `471-499`). -/
def start (workers : ℕ) (l : List α) : St α β :=
  let c := chunksize l.length workers
  { tasks := (getTasks c l).zipIdx.map fun t => (t.2, t.1)
    running := []
    results := []
    job := MapResult.init c l.length }

/-- One action in a pool of `workers` processes that compute `f`. -/
inductive Step (workers : ℕ) (f : α → Py β) : St α β → St α β → Prop
  /-- An idle worker takes the next batch (`worker`, `pool.py:113-123`). -/
  | get {s : St α β} {t rest} (hw : s.running.length < workers) (h : s.tasks = t :: rest) :
      Step workers f s { s with tasks := rest, running := s.running ++ [t] }
  /-- Some worker finishes its batch (`worker`, `pool.py:124-131`, with `starmapstar`,
  `pool.py:50-51`: the arguments of a batch one after the other). -/
  | put {s : St α β} {t a b} (h : s.running = a ++ t :: b) :
      Step workers f s { s with
        running := a ++ b
        results := s.results ++ [(t.1, t.2.mapM f)] }
  /-- The thread of the results collects one (`_handle_results`, `pool.py:574-592`). -/
  | collect {s : St α β} {r rest} (h : s.results = r :: rest) :
      Step workers f s { s with results := rest, job := s.job.set r.1 r.2 }

/-- An execution of `n` actions. -/
inductive Run (workers : ℕ) (f : α → Py β) : ℕ → St α β → St α β → Prop
  | nil (s) : Run workers f 0 s s
  | cons {n s t u} : Step workers f s t → Run workers f n t u → Run workers f (n + 1) s u

/-- `starmap` returns (`pool.py:369-375`, `get`): all batches are collected. -/
def Finished (s : St α β) : Prop := s.job.number_left = 0

variable {d : ℕ}

/-- `predict_by_trees` (`trees_common.py:497-536`) with a pool of `num_cpu` processes can end with
`out`. A `None` among the results would be a `TypeError` of `zip(*results)`. -/
def PredictsTo (num_cpu : ℕ) (X : List (Point d)) (list_trees : List (Tree d))
    (out : Py (List ℝ × List ℝ)) : Prop :=
  if X.length ≤ NUM_DATA_PER_SPLIT_TREES then
    out = unitPredictByTrees X list_trees
  else
    let list_Xs := arraySplit X ⌈(X.length : ℚ) / NUM_DATA_PER_SPLIT_TREES⌉₊
    ∃ n s, Run num_cpu (fun Xs => unitPredictByTrees Xs list_trees) n (start num_cpu list_Xs) s ∧
      Finished s ∧
      out = do
        let results ← s.job.value
        let results ← results.mapM fun
          | some r => (.ok r : Py (List ℝ × List ℝ))
          | none => .error .type
        return ((results.map (·.1)).flatten, (results.map (·.2)).flatten)

end Verif.Pool
