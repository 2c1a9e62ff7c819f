import Verif.Model.Substitute
/-
Notions of the statements about placeholder substitution, independent of replacing one name after the other.
-/
namespace MLMC.Sub

/-- A template seen as a list of pieces: plain characters and placeholders. -/
inductive Piece
  | ch (c : Char)
  | ph (name : Str)
  deriving DecidableEq

/-- The text of a template. -/
def source : List Piece → Str
  | [] => []
  | .ch c :: t => c :: source t
  | .ph n :: t => '<' :: (n ++ '>' :: source t)

/-- The text with every placeholder replaced by its value. -/
def filled (val : Str → Str) : List Piece → Str
  | [] => []
  | .ch c :: t => c :: filled val t
  | .ph n :: t => val n ++ filled val t

/-- The pieces show all placeholders: nowhere do plain characters of the template spell `<name>` for a given name. -/
def Complete (names : List Str) : List Piece → Prop
  | [] => True
  | .ch c :: t => (∀ n ∈ names, ¬ ('<' :: (n ++ ['>'])) <+: source (.ch c :: t)) ∧ Complete names t
  | .ph n :: t => n ∈ names ∧ Complete names t

/-- Names without angle brackets. -/
def GoodName (n : Str) : Prop := '<' ∉ n ∧ '>' ∉ n

/-- Values that cannot be mistaken for (a part of) a placeholder: no angle brackets, and not a part of a name. -/
def GoodValue (names : List Str) (v : Str) : Prop := '<' ∉ v ∧ '>' ∉ v ∧ ∀ n ∈ names, ¬ v <:+: n

end MLMC.Sub
