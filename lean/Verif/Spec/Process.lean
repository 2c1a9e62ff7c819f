import Verif.Model.Process
/-! What it means that a script collected everything, and where a path leads. -/
namespace MLMC.Process
variable {V S : Type}

/-- A sampler before and after: answers of its pool were stored one after another, the last of them says that nothing is running. -/
def Collected (store : S → PoolAnswer V → S) (before after : S × List (PoolAnswer V × ℚ)) : Prop :=
  ∃ used last elapsed, before.2 = used ++ (last, elapsed) :: after.2 ∧ after.1 = (used.map (·.1) ++ [last]).foldl store before.1 ∧ last.nRunning = 0

/-- The name of a directory or file. -/
def IsName (x : List Char) : Prop := x ≠ [] ∧ '/' ∉ x ∧ x ≠ ['.'] ∧ x ≠ ['.', '.']

/-- The absolute path leads to the directory with these names, from the root on. -/
inductive Leads : List Char → List (List Char) → Prop
  | root : Leads ['/'] []
  | slash {p ns} : Leads p ns → Leads (p ++ ['/']) ns
  | name {p ns x} : Leads (p ++ ['/']) ns → IsName x → Leads (p ++ '/' :: x) (ns ++ [x])
  | here {p ns} : Leads (p ++ ['/']) ns → Leads (p ++ ['/', '.']) ns
  | up {p ns} : Leads (p ++ ['/']) ns → Leads (p ++ ['/', '.', '.']) ns.dropLast

/-- The path begins with two slashes and not with three. -/
def TwoSlashes (p : List Char) : Prop := ['/', '/'] <+: p ∧ ¬ ['/', '/', '/'] <+: p

/-- The settings for Metacentrum and for other machines. -/
def metacentrum : Settings := ⟨30, 600, 0, true⟩
def otherMachine : Settings := ⟨1, 60, 60, false⟩

end MLMC.Process
