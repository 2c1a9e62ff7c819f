/-
The table printed by `qstat -x` and what it says.
-/
namespace MLMC.Qstat

/-- A row of the table: the identifier `number.server` and the columns name, user, time used, state, queue, each with the number of blanks before it. -/
structure Row where
  number : List Char
  server : List Char
  gapName : Nat
  name : List Char
  gapUser : Nat
  user : List Char
  gapTime : Nat
  time : List Char
  state : Char
  gapQueue : Nat
  queue : List Char

/-- Blanks. -/
def blanks (n : Nat) : List Char := List.replicate n ' '

/-- The printed row; the state stands one blank after the used time. -/
def Row.text (r : Row) : List Char :=
  r.number ++ '.' :: (r.server ++ (blanks r.gapName ++ (r.name ++ (blanks r.gapUser ++ (r.user ++ (blanks r.gapTime ++ (r.time ++ ' ' :: r.state :: (blanks r.gapQueue ++ (r.queue ++ ['\n']))))))))) 

/-- A word without blanks and line breaks. -/
def Word (w : List Char) : Prop := w ≠ [] ∧ ∀ c ∈ w, c ≠ ' ' ∧ c ≠ '\n'

/-- The last character is a digit. -/
def EndsInDigit (w : List Char) : Prop := ∃ v c, w = v ++ [c] ∧ c.isDigit = true

/-- A row as the batch system prints it: columns are words separated by blanks, the identifier is a number, the used time ends with a digit, the state is a letter. -/
structure Row.Ok (r : Row) : Prop where
  number : r.number ≠ [] ∧ ∀ c ∈ r.number, c.isDigit = true
  server : Word r.server
  name : Word r.name
  user : Word r.user
  time : Word r.time
  queue : Word r.queue
  gaps : 0 < r.gapName ∧ 0 < r.gapUser ∧ 0 < r.gapTime ∧ 0 < r.gapQueue
  seconds : EndsInDigit r.time
  state : r.state.isDigit = false ∧ r.state ≠ ' ' ∧ r.state ≠ '\n'

/-- Two words that look like the time and the state of a finished job: a digit, one blank, the letter F. -/
def Confusing (v : List Char) (gap : Nat) (w : List Char) : Prop := EndsInDigit v ∧ gap = 1 ∧ ∃ t, w = 'F' :: t
end MLMC.Qstat
