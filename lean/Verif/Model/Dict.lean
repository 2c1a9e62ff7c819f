/-
Insertion-ordered Python dictionaries as association lists.
Python semantics modelled: `d.get(k)`, `d.setdefault(k, dflt)` followed by an in-place update, `d[k] = v`,
`d.items()`, `d.keys()`.  Keys keep the position of their first insertion (CPython ≥ 3.7).
-/
namespace MLMC

/-- Python `dict` with keys `κ` (insertion ordered). Used wherever the code has dictionaries, e.g. /repo/mlmc/sample_storage.py:141-147, /repo/mlmc/sampling_pool.py:214-217. -/
abbrev Dict (κ α : Type) := List (κ × α)

namespace Dict
variable {κ α : Type} [DecidableEq κ]

/-- `d.get(k)`. E.g. /repo/mlmc/sample_storage.py:187-189. -/
def get? : Dict κ α → κ → Option α
  | [], _ => none
  | (k', v) :: d, k => if k' = k then some v else get? d k

/-- `d.setdefault(k, dflt)` and then replacing the entry by `f` of it. E.g. /repo/mlmc/sample_storage.py:198, 237, /repo/mlmc/sampling_pool.py:244, 252. -/
def upd (d : Dict κ α) (k : κ) (dflt : α) (f : α → α) : Dict κ α :=
  match d with
  | [] => [(k, f dflt)]
  | (k', v) :: t => if k' = k then (k', f v) :: t else (k', v) :: upd t k dflt f

/-- `d[k] = v`. E.g. /repo/mlmc/sample_storage.py:201, /repo/mlmc/random/correlated_field.py:146. -/
def set (d : Dict κ α) (k : κ) (v : α) : Dict κ α := upd d k v (fun _ => v)

/-- `d.keys()`. E.g. /repo/mlmc/sample_storage.py:318, /repo/mlmc/random/correlated_field.py:164. -/
def keys (d : Dict κ α) : List κ := d.map (·.1)

end Dict
end MLMC
