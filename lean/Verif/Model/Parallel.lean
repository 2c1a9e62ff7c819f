import Verif.Model.Pool
/-
`ProcessPool` and `ThreadPool` (/repo/mlmc/sampling_pool.py:297-337): the main thread schedules and polls while the
result-handler thread of `multiprocessing.pool` puts results into the queues.  The model interleaves the two threads at the
granularity of queue operations.  `T` is the type of an item put into a queue.
-/
namespace MLMC

/-- A queue: `(false, level)` is `_queues[level]`, `(true, level)` is `_failed_queues[level]`. /repo/mlmc/sampling_pool.py:214-215. -/
abbrev QKey := Bool × Nat

/-- Where the main thread is. /repo/mlmc/sampling_pool.py:272-294. -/
inductive MainPc (T : Type)
  /-- outside `get_finished` -/
  | idle
  /-- inside `_queues_to_list` of the successful (`false`) or failed (`true`) queues, these queues still to visit -/
  | loop (failed : Bool) (rest : List QKey)
  /-- /repo/mlmc/sampling_pool.py:284-287: `queue_list` was read, the queue not yet cleared -/
  | snapped (failed : Bool) (k : QKey) (items : List T) (rest : List QKey)
  deriving DecidableEq

/-- State of the pool shared by the threads, /repo/mlmc/sampling_pool.py:297-337. -/
structure Par (T : Type) where
  queues : Dict QKey (List T) := []
  running : ℤ := 0
  /-- the result-handler thread is alive -/
  alive : Bool := true
  pc : MainPc T := .idle
  /-- everything returned by `get_finished` so far -/
  returned : List T := []
  deriving DecidableEq

/-- Keys of the successful or of the failed queues: `list(self._queues.items())`, /repo/mlmc/sampling_pool.py:276-277. -/
def Par.keysOf {T : Type} (s : Par T) (failed : Bool) : List QKey := (Dict.keys s.queues).filter fun k => k.1 == failed

/-- Steps of the two threads, /repo/mlmc/sampling_pool.py:272-323. -/
inductive ParEv (T : Type)
  /-- main thread: `schedule_sample`, /repo/mlmc/sampling_pool.py:315-323 (only outside `get_finished`) -/
  | schedule
  /-- main thread: next step of `get_finished`, starting it if idle -/
  | main
  /-- handler thread: `res_callback` puts a finished sample into its queue, /repo/mlmc/sampling_pool.py:244, 252, 313 -/
  | put (k : QKey) (x : T)
  /-- handler thread: `error_callback` after the worker function itself raised (e.g. a file that cannot be copied):
  `self._process_result(*result, …)` on an exception object raises `TypeError`, which ends the handler thread. -/
  | workerError

/-- Effect of a step, /repo/mlmc/sampling_pool.py:272-323. -/
def Par.step {T : Type} (s : Par T) : ParEv T → Par T
  | .schedule => if s.pc matches .idle then { s with running := s.running + 1 } else s
  | .put k x => if s.alive then { s with queues := Dict.upd s.queues k [] (· ++ [x]) } else s
  | .workerError => { s with alive := false }
  | .main => match s.pc with
    | .idle => { s with pc := .loop false (s.keysOf false) }
    | .loop f (k :: rest) =>
      match (Dict.get? s.queues k).getD [] with
      | [] => { s with pc := .loop f rest }
      | x :: xs => { s with pc := .snapped f k (x :: xs) rest }
    | .loop false [] => { s with pc := .loop true (s.keysOf true) }
    | .loop true [] => { s with pc := .idle }
    | .snapped f k items rest =>
      { s with queues := Dict.upd s.queues k [] (fun _ => []), running := s.running - items.length, pc := .loop f rest,
               returned := s.returned ++ items }

/-- A schedule of the two threads, /repo/mlmc/sampling_pool.py:272-323. -/
def Par.run {T : Type} (s : Par T) (evs : List (ParEv T)) : Par T := evs.foldl Par.step s

end MLMC
