import Verif.Model.PbsJob
/-
The texts by which the PBS pool identifies jobs: output of `qsub` and `qstat -x`, names of the files that connect job numbers and PBS identifiers.
/repo/mlmc/sampling_pool_pbs.py:229-236, 287-300, 337-343, 347-353, /repo/mlmc/tool/pbs_job.py:351-360.  Digits are ASCII digits.
-/
namespace MLMC.Qstat

/-- `process.stdout.decode("ascii").split(".")[0]`, /repo/mlmc/sampling_pool_pbs.py:230. -/
def qsubId (out : List Char) : List Char := out.takeWhile (· ≠ '.')

/-- The text after a blank and the letter F, if it begins with them.  /repo/mlmc/sampling_pool_pbs.py:298. -/
def afterF : List Char → Option (List Char)
  | ' ' :: 'F' :: r => some r
  | _ => none

/-- The rest of the text after the last place of the first line with a digit, a space and the letter F: the greedy `.*\d+ F` of the regular expression (`.` does not match a line break).
/repo/mlmc/sampling_pool_pbs.py:298. -/
def lastMark : List Char → Option (List Char)
  | [] => none
  | c :: s =>
    if c = '\n' then none else
    match lastMark s with
    | some r => some r
    | none => if c.isDigit then afterF s else none

/-- A match of `(\d+)\..*\d+ F` at the beginning of the text: the group and the text after the match.  `\d+` takes all digits: with fewer of them the next character is not the point.
/repo/mlmc/sampling_pool_pbs.py:298. -/
def matchHere (s : List Char) : Option (List Char × List Char) :=
  let ds := s.takeWhile Char.isDigit
  if ds = [] then none else
  match s.dropWhile Char.isDigit with
  | '.' :: t => (lastMark t).map fun r => (ds, r)
  | _ => none

/-- `re.findall(r"(\d+)\..*\d+ F", output)`: groups of the matches from left to right, not overlapping.  The first argument bounds the number of steps, the length of the text is enough.
/repo/mlmc/sampling_pool_pbs.py:298. -/
def findFrom : Nat → List Char → List (List Char)
  | 0, _ => []
  | _ + 1, [] => []
  | n + 1, c :: s =>
    match matchHere (c :: s) with
    | some (g, r) => g :: findFrom n r
    | none => findFrom n s

/-- The jobs taken as finished, /repo/mlmc/sampling_pool_pbs.py:296-298. -/
def finishedJobs (output : List Char) : List (List Char) := findFrom output.length output

/-- The name of the file written for a submitted job, /repo/mlmc/tool/pbs_job.py:23-24, 351-360. -/
def idFile (job : Nat) (pbsId : List Char) : List Char := jobName job ++ '_' :: pbsId

/-- `glob.glob("*_{}".format(pbs_id))` in the jobs directory, for an identifier of digits.  /repo/mlmc/sampling_pool_pbs.py:338-339, 347-348. -/
def globId (files : List (List Char)) (pbsId : List Char) : List (List Char) := files.filter fun f => ('_' :: pbsId).isSuffixOf f

/-- `re.findall(r'(\d+)_\d+', file)[0]`: the first run of digits before an underscore and a digit.  The first argument bounds the number of steps.  /repo/mlmc/sampling_pool_pbs.py:341, 353. -/
def jobOfFrom : Nat → List Char → Option (List Char)
  | 0, _ => none
  | _ + 1, [] => none
  | n + 1, c :: s =>
    match (c :: s).takeWhile Char.isDigit, (c :: s).dropWhile Char.isDigit with
    | d :: ds, '_' :: e :: _ => if e.isDigit then some (d :: ds) else jobOfFrom n s
    | _, _ => jobOfFrom n s

/-- The job name found for a PBS identifier: `none` if no file or no match (the code skips the job, or raises IndexError without a match).
/repo/mlmc/sampling_pool_pbs.py:337-341, 346-353. -/
def jobOf (files : List (List Char)) (pbsId : List Char) : Option (List Char) :=
  match globId files pbsId with
  | [] => none
  | f :: _ => jobOfFrom f.length f
end MLMC.Qstat
