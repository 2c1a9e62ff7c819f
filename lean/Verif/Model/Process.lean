import Verif.Model.Polling
/-
Scripts derived from `ProcessBase`, /repo/mlmc/tool/process_base.py: commands, waiting for all samples, and the settings for the machine.
Not modelled: `get_arguments` beyond its four commands (argparse), `ProcessBase.run` (it calls `setup_config`, which raises `NotImplementedError` unless replaced, and then `generate_jobs` with keywords it
does not have), `create_pbs_object` (uses the undefined name `pbs`), and the analyses from line 231 on (they call methods that no class of the package has).
-/
namespace MLMC.Process

/-- The commands, /repo/mlmc/tool/process_base.py:39. -/
inductive Command
  | run | collect | renew | process
  deriving DecidableEq

/-- What `__init__` sets, and whether it gives `renew=True` to `self.run` or leaves out the argument, /repo/mlmc/tool/process_base.py:12-27, /repo/test/01_cond_field/process.py:15-32. -/
structure Start where
  append : Bool
  clean : Bool
  renew : Option Bool
  deriving DecidableEq

/-- `__init__`, /repo/mlmc/tool/process_base.py:12-27, /repo/test/01_cond_field/process.py:15-32. -/
def start (c : Command) (clean : Bool) : Start :=
  if c = .run then ⟨false, clean, none⟩ else ⟨true, false, if c = .renew then some true else none⟩

/-- The value of `renew` in `run`: `dflt` is the default, `True` in /repo/mlmc/tool/process_base.py:53 and `False` in /repo/test/01_cond_field/process.py:34. -/
def Start.renews (s : Start) (dflt : Bool) : Bool := s.renew.getD dflt

variable {V S : Type}

/-- One turn of the loop over samplers, /repo/mlmc/tool/process_base.py:226-228: a sampler is its storage and what its pool will answer; the number of running samples of all of them.
`none`: a call is still waiting when the given answers are used up. -/
def collectRound (store : S → PoolAnswer V → S) (timeout : Option ℚ) : List (S × List (PoolAnswer V × ℚ)) → Option (ℤ × List (S × List (PoolAnswer V × ℚ)))
  | [] => some (0, [])
  | s :: ss => match askPool store timeout s.2 s.1 with
    | none => none
    | some r => match collectRound store timeout ss with
      | none => none
      | some rs => some (r.1 + rs.1, r.2 :: rs.2)

/-- `all_collect`, /repo/mlmc/tool/process_base.py:218-229 (`timeout=0.1`), for at most `rounds` turns (`none`: still waiting).  With one sampler and no timeout:
/repo/examples/shooting/shooting_1D.py:150-160, /repo/examples/shooting/shooting_2D.py:190-200. -/
def allCollect (store : S → PoolAnswer V → S) (timeout : Option ℚ) : Nat → List (S × List (PoolAnswer V × ℚ)) → Option (List (S × List (PoolAnswer V × ℚ)))
  | 0, _ => none
  | rounds + 1, ss => match collectRound store timeout ss with
    | none => none
    | some r => if r.1 > 0 then allCollect store timeout rounds r.2 else some r.2

/-! ## Settings for the machine -/

/-- `path.split('/')`, in `os.path.normpath` used in /repo/mlmc/tool/process_base.py:110. -/
def pieces : List Char → List (List Char)
  | [] => [[]]
  | c :: p => if c = '/' then [] :: pieces p else match pieces p with
    | [] => [[c]]
    | x :: xs => (c :: x) :: xs

/-- The loop of `os.path.normpath` over the parts of an absolute path (`names` in reverse), used in /repo/mlmc/tool/process_base.py:110. -/
def resolve (names : List (List Char)) : List (List Char) → List (List Char)
  | [] => names.reverse
  | x :: xs => if x = [] ∨ x = ['.'] then resolve names xs else if x = ['.', '.'] then resolve names.tail xs else resolve (x :: names) xs

/-- `'/'.join(names)`, in `os.path.normpath` used in /repo/mlmc/tool/process_base.py:110. -/
def joined : List (List Char) → List Char
  | [] => []
  | [x] => x
  | x :: y :: xs => x ++ '/' :: joined (y :: xs)

/-- The leading slashes that `os.path.normpath` keeps: two stay two, used in /repo/mlmc/tool/process_base.py:110. -/
def slashes : List Char → List Char
  | ['/', '/'] => ['/', '/']
  | '/' :: '/' :: c :: _ => if c = '/' then ['/'] else ['/', '/']
  | _ => ['/']

/-- `os.path.abspath(work_dir)` with the current directory `cwd` (an absolute path), used in /repo/mlmc/tool/process_base.py:110. -/
def abspath (cwd p : List Char) : List Char :=
  let full := if p.head? = some '/' then p else if cwd.getLast? = some '/' then cwd ++ p else cwd ++ '/' :: p
  slashes full ++ joined (resolve [] (pieces full))

/-- `os.path.split(path)`: the part after the last slash and the part before it without slashes at the end (unless it has nothing else).  Used in /repo/mlmc/tool/process_base.py:110. -/
def splitPath (p : List Char) : List Char × List Char :=
  let tail := (p.reverse.takeWhile (· ≠ '/')).reverse
  let head := (p.reverse.dropWhile (· ≠ '/')).reverse
  (if head.all (· = '/') then head else (head.reverse.dropWhile (· = '/')).reverse, tail)

/-- The loop in /repo/mlmc/tool/process_base.py:110-112 with the use of `tail` in line 123, for at most `steps` evaluations of its condition (`none`: still in the loop).  Without a turn `tail` has no value. -/
def topDir : Nat → List Char → Option (List Char) → Option (Except PyErr (List Char))
  | 0, _, _ => none
  | steps + 1, root, tail =>
    if root ≠ ['/'] then topDir steps (splitPath root).1 (some (splitPath root).2)
    else match tail with
      | none => some (.error .unboundLocal)
      | some t => some (.ok t)

/-- The settings, /repo/mlmc/tool/process_base.py:123-138: sleep and timeouts, and whether jobs go to `qsub`. -/
structure Settings where
  sampleSleep : ℚ
  initTimeout : ℚ
  sampleTimeout : ℚ
  qsub : Bool
  deriving DecidableEq

/-- `set_environment_variables`, /repo/mlmc/tool/process_base.py:105-138. -/
def environment (steps : Nat) (cwd workDir : List Char) : Option (Except PyErr Settings) :=
  (topDir steps (abspath cwd workDir) none).map fun r => r.map fun tail =>
    if tail = "storage".toList then ⟨30, 600, 0, true⟩ else ⟨1, 60, 60, false⟩

end MLMC.Process
