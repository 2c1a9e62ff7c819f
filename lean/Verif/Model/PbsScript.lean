import Verif.Model.PbsJob
import Verif.Model.Quantity
/-
The script of a PBS job and the parameters the job process gets through it: `pbs_common_setting`, `_create_script` (/repo/mlmc/sampling_pool_pbs.py:119-167, 246-258), the class file and the command line of the job
process (/repo/mlmc/tool/pbs_job.py:31-110).  Texts are lists of characters.
-/
namespace MLMC.Script
/-- Texts.  /repo/mlmc/sampling_pool_pbs.py:119-167. -/
abbrev Str := List Char

/-- A field of a format text by its name.  Python also has positions, attributes, indices, conversions and format specifications (characters `.[!:`): in the model they raise.  Positions (`{}`, `{0}`)
raise IndexError as there are no positional arguments.  /repo/mlmc/sampling_pool_pbs.py:258. -/
def field (kw : Dict Str Str) (name : Str) : Except PyErr Str :=
  if name.all (·.isDigit) then .error .indexError
  else if name.any (fun c => c = '.' || c = '[' || c = '!' || c = ':' || c = '{') then .error .other
  else match Dict.get? kw name with
    | some v => .ok v
    | none => .error .keyError

/-- Where a format text is read: in plain text, after `{`, after `}` or in a field with its characters so far in reverse order.  /repo/mlmc/sampling_pool_pbs.py:258. -/
inductive Mode
  | text
  | opened
  | closed
  | inside (acc : Str)

/-- `text.format(**kw)`, /repo/mlmc/sampling_pool_pbs.py:258: `{{` and `}}` are braces, `{name}` a value, other braces raise. -/
def fmt (kw : Dict Str Str) : Mode → Str → Except PyErr Str
  | .text, [] => .ok []
  | .text, c :: s => if c = '{' then fmt kw .opened s else if c = '}' then fmt kw .closed s else (fmt kw .text s).map (c :: ·)
  | .opened, [] => .error .valueError
  | .opened, d :: s => if d = '{' then (fmt kw .text s).map ('{' :: ·) else if d = '}' then .error .indexError else fmt kw (.inside [d]) s
  | .closed, [] => .error .valueError
  | .closed, d :: s => if d = '}' then (fmt kw .text s).map ('}' :: ·) else .error .valueError
  | .inside _, [] => .error .valueError
  | .inside n, c :: s =>
    if c = '}' then (field kw n.reverse).bind fun v => (fmt kw .text s).map (v ++ ·)
    else fmt kw (.inside (c :: n)) s

/-- Keyword arguments of `pbs_common_setting`: `values` those that are texts (or printed as texts), `selectFlags`, `optional` (`optional_pbs_requests`) and `env` (`env_setting`) are lists.
/repo/mlmc/sampling_pool_pbs.py:119-134. -/
structure Settings where
  values : Dict Str Str
  selectFlags : Option (List Str) := none
  optional : Option (List Str) := none
  env : Option (List Str) := none

/-- `":" + ":".join(flags)`, or nothing for no flags.  /repo/mlmc/sampling_pool_pbs.py:136-140. -/
def flagText (flags : List Str) : Str := flags.flatMap fun f => ':' :: f

/-- A value set unless there is one already, /repo/mlmc/sampling_pool_pbs.py:143-147. -/
def default (kw : Dict Str Str) (k v : Str) : Dict Str Str := if (Dict.get? kw k).isSome then kw else Dict.set kw k v

/-- The fixed first lines, /repo/mlmc/sampling_pool_pbs.py:149-159. -/
def fixedLines : List Str :=
  ["#!/bin/bash".toList,
   "#PBS -S /bin/bash".toList,
   "#PBS -l select={n_nodes}:ncpus={n_cores}:mem={mem}{select_flags}".toList,
   "#PBS -l walltime={walltime}".toList,
   "#PBS -q {queue}".toList,
   "#PBS -N {pbs_name}".toList,
   "#PBS -j {std_out_err}".toList,
   "#PBS -o {pbs_output_dir}/{job_name}.OU".toList,
   "#PBS -e {pbs_output_dir}/{job_name}.ER".toList]

/-- The line with the working directory, /repo/mlmc/sampling_pool_pbs.py:163. -/
def workLine (workDir : Str) : Str := "MLMC_WORKDIR=\"".toList ++ workDir ++ ['"']

/-- The command, /repo/mlmc/sampling_pool_pbs.py:165-166. -/
def commandLine : Str := "{python} -m mlmc.tool.pbs_job {output_dir} {job_name} >{pbs_output_dir}/{job_name}_STDOUT 2>&1".toList

/-- `pbs_common_setting`, /repo/mlmc/sampling_pool_pbs.py:119-167: the template and the configuration.  A missing list raises KeyError. -/
def commonSetting (workDir : Str) (s : Settings) : Except PyErr (List Str × Dict Str Str) :=
  let kw := Dict.set s.values "select_flags".toList (flagText (s.selectFlags.getD []))
  let kw := default kw "python".toList "python3".toList
  let kw := default kw "std_out_err".toList "oe".toList
  match s.optional, s.env with
  | some o, some e => .ok (fixedLines ++ o ++ [workLine workDir] ++ e ++ [commandLine], kw)
  | _, _ => .error .keyError

/-- `os.path.join(dir, name)` for a directory without a slash at its end.  /repo/mlmc/sampling_pool.py:32-35, 48. -/
def subdir (workDir name : Str) : Str := workDir ++ '/' :: name

/-- `output_dir` of the pool, /repo/mlmc/sampling_pool.py:32-35. -/
def outputDir (workDir : Str) : Str := subdir workDir "output".toList

/-- `jobs_dir` of the pool, /repo/mlmc/sampling_pool_pbs.py:54-55, 90, /repo/mlmc/sampling_pool.py:48. -/
def jobsDir (workDir : Str) : Str := subdir (outputDir workDir) "jobs".toList

/-- The configuration when the script is written, /repo/mlmc/sampling_pool_pbs.py:253-256. -/
def jobConfig (workDir : Str) (job : Nat) (kw : Dict Str Str) : Dict Str Str :=
  Dict.set (Dict.set (Dict.set (Dict.set kw "job_name".toList (jobName job)) "pbs_output_dir".toList (jobsDir workDir)) "output_dir".toList (outputDir workDir)) "work_dir".toList workDir

/-- `_create_script`, /repo/mlmc/sampling_pool_pbs.py:246-258: the lines of the script. -/
def createScript (workDir : Str) (job : Nat) (template : List Str) (kw : Dict Str Str) : Except PyErr (List Str) :=
  template.mapM (fmt (jobConfig workDir job kw) .text)

/-- Setting and script together: what `execute` writes for the job after `pbs_common_setting(**s)`.  /repo/mlmc/sampling_pool_pbs.py:119-167, 198-224. -/
def script (workDir : Str) (s : Settings) (job : Nat) : Except PyErr (List Str) :=
  (commonSetting workDir s).bind fun r => createScript workDir job r.1 r.2

/-- The class file when a pool was created on the working directory: without debug the output directory is emptied.  /repo/mlmc/sampling_pool.py:39-51. -/
def afterInit (old : Option Str) (debug : Bool) : Option Str := if debug then old else none

/-- The class file, written if there is none: the directory of jobs, the name of serialised simulations and the debug flag, each with a semicolon.  /repo/mlmc/tool/pbs_job.py:77-88. -/
def serialize (old : Option Str) (jobs simFile : Str) (debug : Bool) : Str :=
  match old with
  | some t => t
  | none => jobs ++ ';' :: (simFile ++ ';' :: ((if debug then "True" else "False").toList ++ [';']))

/-- `text.split(sep)`, /repo/mlmc/tool/pbs_job.py:98. -/
def splitOn (sep : Char) : Str → List Str
  | [] => [[]]
  | c :: s => if c = sep then [] :: splitOn sep s else
    match splitOn sep s with
    | [] => [[c]]
    | w :: ws => (c :: w) :: ws

/-- `_deserialize_pbs_process`, /repo/mlmc/tool/pbs_job.py:91-99: the first line is used. -/
def deserialize (text : Str) : Except PyErr (Str × Str × Bool) :=
  match splitOn ';' (text.takeWhile (· ≠ '\n')) with
  | a :: b :: c :: _ => .ok (a, b, decide (c = "True".toList))
  | _ => .error .indexError

/-- Arguments the shell passes to the module `mlmc.tool.pbs_job` for a command line: the words after the name of the module (`sys.argv[1:]`), /repo/mlmc/tool/pbs_job.py:102-110.  Simplification: words are separated by
single blanks; characters with a meaning for the shell (quotes, `$`, `;`, …) are not interpreted. -/
def shellArgs (line : Str) : List Str := ((splitOn ' ' line).dropWhile (· ≠ "mlmc.tool.pbs_job".toList)).drop 1

/-- The job process: directory of outputs, directory of jobs, job name, name of serialised simulations, debug flag.  /repo/mlmc/tool/pbs_job.py:31-46. -/
structure Process where
  outputDir : Str
  jobsDir : Str
  jobId : Str
  simFile : Str
  debug : Bool
  deriving DecidableEq, Repr

/-- `create_process` for a line of the script, /repo/mlmc/tool/pbs_job.py:66-74.  `read`: the class file in a directory (`none`: no such file). -/
def createProcess (read : Str → Option Str) (line : Str) : Except PyErr Process :=
  match shellArgs line with
  | out :: job :: _ =>
    match read out with
    | none => .error .other
    | some t => (deserialize t).map fun r => ⟨out, r.1, job, r.2.1, r.2.2⟩
  | _ => .error .indexError

/-- `LEVEL_SIM_CONFIG`, /repo/mlmc/sampling_pool_pbs.py:56. -/
def simFile : Str := "level_{}_simulation_config".toList

/-- The job process of job `job` of a pool created on the working directory with `debug`, after `pbs_common_setting(**s)`: the class file is written, the script is written and run, its last line
starts the process, which finds the class file in the output directory.  `old`: the class file before the pool was created.  /repo/mlmc/sampling_pool_pbs.py:198-224, /repo/mlmc/tool/pbs_job.py:50-74. -/
def runJob (workDir : Str) (old : Option Str) (debug : Bool) (s : Settings) (job : Nat) : Except PyErr Process :=
  let file := serialize (afterInit old debug) (jobsDir workDir) simFile debug
  (script workDir s job).bind fun lines =>
    createProcess (fun d => if d = outputDir workDir then some file else none) (lines.getLastD [])
end MLMC.Script
