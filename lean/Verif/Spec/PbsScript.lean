import Verif.Model.PbsScript
/-
Notions for the statements about scripts of jobs.
-/
namespace MLMC.Script

/-- A directory whose name has no blank, semicolon, brace or end of line. -/
def PlainDir (d : Str) : Prop := ∀ c ∈ d, c ≠ ' ' ∧ c ≠ ';' ∧ c ≠ '{' ∧ c ≠ '}' ∧ c ≠ '\n'

/-- Lines the user adds to the script, without braces. -/
def PlainLines (l : List Str) : Prop := ∀ t ∈ l, ∀ c ∈ t, c ≠ '{' ∧ c ≠ '}'

/-- What the user requests of the batch system. -/
structure Request where
  nodes : Str
  cores : Str
  mem : Str
  walltime : Str
  queue : Str
  name : Str

/-- The settings give the request. -/
structure Gives (s : Settings) (r : Request) : Prop where
  nodes : Dict.get? s.values "n_nodes".toList = some r.nodes
  cores : Dict.get? s.values "n_cores".toList = some r.cores
  mem : Dict.get? s.values "mem".toList = some r.mem
  walltime : Dict.get? s.values "walltime".toList = some r.walltime
  queue : Dict.get? s.values "queue".toList = some r.queue
  name : Dict.get? s.values "pbs_name".toList = some r.name

/-- The command for python in the settings, `python3` if there is none. -/
def pythonOf (s : Settings) : Str := (Dict.get? s.values "python".toList).getD "python3".toList

/-- The setting for standard output and error, `oe` if there is none. -/
def stdOf (s : Settings) : Str := (Dict.get? s.values "std_out_err".toList).getD "oe".toList

/-- The script a user expects. -/
def expectedScript (workDir : Str) (job : Nat) (s : Settings) (r : Request) (optional env : List Str) : List Str :=
  ["#!/bin/bash".toList,
   "#PBS -S /bin/bash".toList,
   "#PBS -l select=".toList ++ r.nodes ++ ":ncpus=".toList ++ r.cores ++ ":mem=".toList ++ r.mem ++ (s.selectFlags.getD []).flatMap (fun f => ':' :: f),
   "#PBS -l walltime=".toList ++ r.walltime,
   "#PBS -q ".toList ++ r.queue,
   "#PBS -N ".toList ++ r.name,
   "#PBS -j ".toList ++ stdOf s,
   "#PBS -o ".toList ++ workDir ++ "/output/jobs/".toList ++ jobName job ++ ".OU".toList,
   "#PBS -e ".toList ++ workDir ++ "/output/jobs/".toList ++ jobName job ++ ".ER".toList] ++
  optional ++ ["MLMC_WORKDIR=\"".toList ++ workDir ++ "\"".toList] ++ env ++
  [pythonOf s ++ " -m mlmc.tool.pbs_job ".toList ++ workDir ++ "/output ".toList ++ jobName job ++ " >".toList ++ workDir ++ "/output/jobs/".toList ++ jobName job ++ "_STDOUT 2>&1".toList]
/-- A text with each brace written twice. -/
def doubled (t : Str) : Str := t.flatMap fun c => if c = '{' then ['{', '{'] else if c = '}' then ['}', '}'] else [c]

end MLMC.Script
