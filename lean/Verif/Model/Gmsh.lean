import Verif.Model.Storage
import Verif.Model.Dict
import Mathlib.Data.List.Sort
/-
Gmsh files: `GmshIO` of /repo/mlmc/tool/gmsh_io.py (text format; the binary format is not modelled).
A file is a list of characters.
-/
namespace MLMC.Gm

/-- Texts of files, /repo/mlmc/tool/gmsh_io.py:73-302. -/
abbrev Str := List Char

/-- White space in `strip()` and `split()`: the characters with `str.isspace()`. /repo/mlmc/tool/gmsh_io.py:88, 112. -/
def isSp (c : Char) : Bool :=
  c.toNat = 32 || (9 ≤ c.toNat && c.toNat ≤ 13) || (28 ≤ c.toNat && c.toNat ≤ 31) || c.toNat = 0x85 || c.toNat = 0xa0 || c.toNat = 0x1680 ||
    (0x2000 ≤ c.toNat && c.toNat ≤ 0x200a) || c.toNat = 0x2028 || c.toNat = 0x2029 || c.toNat = 0x202f || c.toNat = 0x205f || c.toNat = 0x3000

/-- Python `s.strip(chars)`. /repo/mlmc/tool/gmsh_io.py:53, 88. -/
def stripBy (p : Char → Bool) (s : Str) : Str := ((s.dropWhile p).reverse.dropWhile p).reverse

/-- Python `s.strip()`, /repo/mlmc/tool/gmsh_io.py:88. -/
def strip (s : Str) : Str := stripBy isSp s

/-- Python `s.split()`; `cur` is the current word, reversed. /repo/mlmc/tool/gmsh_io.py:112. -/
def splitFrom : Str → Str → List Str
  | cur, [] => if cur = [] then [] else [cur.reverse]
  | cur, c :: s =>
    if isSp c then (if cur = [] then splitFrom [] s else cur.reverse :: splitFrom [] s) else splitFrom (c :: cur) s

/-- Python `s.split()`, /repo/mlmc/tool/gmsh_io.py:112. -/
def split (s : Str) : List Str := splitFrom [] s

/-- Successive `readline()`: the lines without their line feeds; `cur` is the current line, reversed. /repo/mlmc/tool/gmsh_io.py:86-87. -/
def linesFrom : Str → Str → List Str
  | cur, [] => if cur = [] then [] else [cur.reverse]
  | cur, c :: s => if c = '\n' then cur.reverse :: linesFrom [] s else linesFrom (c :: cur) s

/-- Reading in text mode: a carriage return, alone or before a line feed, is read as a line feed; `cr`: the character before was a carriage return.
/repo/mlmc/tool/gmsh_io.py:81, 87. -/
def textMode : Bool → Str → Str
  | _, [] => []
  | cr, c :: s => if c = '\r' then '\n' :: textMode true s else if cr = true ∧ c = '\n' then textMode false s else c :: textMode false s

/-- The lines of a file, /repo/mlmc/tool/gmsh_io.py:81, 86-87. -/
def lines (s : Str) : List Str := linesFrom [] (textMode false s)

/-- `'%d' % n`, `str(n)`. /repo/mlmc/tool/gmsh_io.py:198, 202, 207, 214-216, 286. -/
def showInt : ℤ → Str
  | .ofNat n => Nat.toDigits 10 n
  | .negSucc n => '-' :: Nat.toDigits 10 (n + 1)

/-- Decimal digits, part of `int(s)` in /repo/mlmc/tool/gmsh_io.py:114, 121, 135, 149. -/
def parseNat (s : Str) : Option Nat := if s = [] then none else if s.all (·.isDigit) then some (Nat.ofDigitChars 10 s 0) else none

/-- `int(s)` for decimal texts with an optional sign; `none` is the `ValueError`.  (Underscores between digits are not modelled.) /repo/mlmc/tool/gmsh_io.py:51, 114, 121, 126-127, 135, 149. -/
def parseInt : Str → Option ℤ
  | '-' :: s => (parseNat s).map fun n => - (n : ℤ)
  | '+' :: s => (parseNat s).map fun n => (n : ℤ)
  | s => (parseNat s).map fun n => (n : ℤ)

/-- `str(x)` and `float(s)` for floating point numbers. /repo/mlmc/tool/gmsh_io.py:115, 135, 207, 285. -/
structure Codec (F : Type) where
  render : F → Str
  parse : Str → Option F

/-- Attributes of `GmshIO`, /repo/mlmc/tool/gmsh_io.py:41-46.  `data`: field name ↦ time index ↦ (time, element ↦ values). -/
structure Mesh (F : Type) where
  nodes : Dict ℤ (List F) := []
  elements : Dict ℤ (ℤ × List ℤ × List ℤ) := []
  physical : Dict Str (ℤ × ℤ) := []
  data : Dict Str (Dict ℤ (ℤ × Dict ℤ (List F))) := []

/-- `readmode`, /repo/mlmc/tool/gmsh_io.py:83-110. -/
inductive Mode
  | none | nodes | elements1 | elements | format | physical | data
  deriving DecidableEq

/-- Local variables of `read`: `head` holds the lines read so far by `read_element_data_head`, `cur` tells where `current_elem_data` hangs. /repo/mlmc/tool/gmsh_io.py:83-85, 102-108. -/
structure St (F : Type) where
  mesh : Mesh F := {}
  mode : Mode := .none
  ftype : Option ℤ := none
  head : Option (List Str) := none
  cur : Str × ℤ := ([], 0)
  nComp : ℤ := 0
  stopped : Bool := false

variable {F : Type}

/-- `int(mshfile.readline().strip().split()[0])`; the numbers of the header that are converted by `float` are integers in the files considered. /repo/mlmc/tool/gmsh_io.py:50-70. -/
def headInt (l : Str) : Except PyErr ℤ :=
  match split l with
  | [] => .error .indexError
  | c :: _ => match parseInt c with | some n => .ok n | none => .error .valueError

/-- `read_element_data_head` and the lines after it, /repo/mlmc/tool/gmsh_io.py:48-70, 101-108.  Simplification: time, time index and numbers of components and
elements are integers (`write_fields` writes integers). -/
def startData (s : St F) : List Str → Except PyErr (St F)
  | [l1, l2, l3, l4, l5, l6, l7, l8] => do
    let n1 ← headInt l1
    if n1 ≠ 1 then .error .assertionError else
    let field := stripBy (· = '"') (strip l2)
    let n2 ← headInt l3
    if n2 ≠ 1 then .error .assertionError else
    let time ← headInt l4
    let n3 ← headInt l5
    if n3 ≠ 3 then .error .assertionError else
    let tIdx ← headInt l6
    let nComp ← headInt l7
    let _ ← headInt l8
    let times := (Dict.get? s.mesh.data field).getD []
    if tIdx ∈ Dict.keys times then .error .assertionError else
    .ok { s with mesh := { s.mesh with data := Dict.set s.mesh.data field (Dict.set times tIdx (time, [])) }, head := none, cur := (field, tIdx), nComp := nComp, mode := .data }
  | _ => .error .other

/-- A line starting with `$`, /repo/mlmc/tool/gmsh_io.py:90-110. -/
def section_ (s : St F) (line : Str) : St F :=
  if line = "$NOD".toList ∨ line = "$Nodes".toList then { s with mode := .nodes }
  else if line = "$ELM".toList then { s with mode := .elements1 }
  else if line = "$Elements".toList then { s with mode := .elements }
  else if line = "$MeshFormat".toList then { s with mode := .format }
  else if line = "$PhysicalNames".toList then { s with mode := .physical }
  else if line = "$ElementData".toList then { s with head := some [] }
  else { s with mode := .none }

/-- `[float(col) for col in columns]`. /repo/mlmc/tool/gmsh_io.py:115, 135. -/
def parseFloats (co : Codec F) (cols : List Str) : Option (List F) := cols.mapM co.parse

/-- `[int(col) for col in columns]`, /repo/mlmc/tool/gmsh_io.py:149. -/
def parseInts (cols : List Str) : Option (List ℤ) := cols.mapM parseInt

/-- A row of element data, /repo/mlmc/tool/gmsh_io.py:113-117. -/
def dataRow (co : Codec F) (s : St F) (cols : List Str) : Except PyErr (St F) :=
  match cols with
  | [] => .error .indexError
  | c :: cs => match parseInt c, parseFloats co cs with
    | some i, some vs =>
      if (vs.length : ℤ) ≠ s.nComp then .error .assertionError else
      .ok { s with mesh := { s.mesh with data := Dict.upd s.mesh.data s.cur.1 [] fun times => Dict.upd times s.cur.2 (0, []) fun e => (e.1, Dict.set e.2 i vs) } }
    | _, _ => .error .valueError

/-- A row of the physical names, /repo/mlmc/tool/gmsh_io.py:119-121. -/
def physicalRow (s : St F) (cols : List Str) : Except PyErr (St F) :=
  match cols with
  | [a, b, n] => match parseInt b, parseInt a with
    | some i, some d => .ok { s with mesh := { s.mesh with physical := Dict.set s.mesh.physical n (i, d) } }
    | _, _ => .error .valueError
  | _ => .ok s

/-- The format row, /repo/mlmc/tool/gmsh_io.py:123-130 (the version number is ignored; the message looks up the type in a tuple of two). -/
def formatRow (s : St F) (cols : List Str) : Except PyErr (St F) :=
  match cols with
  | [_, b, c] => match parseInt b, parseInt c with
    | some t, some _ => if -2 ≤ t ∧ t ≤ 1 then .ok { s with ftype := some t } else .error .indexError
    | _, _ => .error .valueError
  | [] => .error .indexError
  | _ => .error .other

/-- A node row, /repo/mlmc/tool/gmsh_io.py:131-145: a text that is no number ends in a `NameError`, the name `ERROR` is not defined.  `ftype` without a
`$MeshFormat` section: `UnboundLocalError`. -/
def nodeRow (co : Codec F) (s : St F) (cols : List Str) : Except PyErr (St F) :=
  match s.ftype with
  | none => .error .unboundLocal
  | some t =>
    if t = 0 then match cols with
      | [c, x, y, z] => match parseInt c, parseFloats co [x, y, z] with
        | some i, some vs => .ok { s with mesh := { s.mesh with nodes := Dict.set s.mesh.nodes i vs } }
        | _, _ => .error .other
      | _ => .ok s
    else if t = 1 then .error .other else .ok s

/-- An element row with more than five columns, /repo/mlmc/tool/gmsh_io.py:146-164.  Simplification: a negative number of tags is taken as 0. -/
def elementRow (s : St F) (cols : List Str) : Except PyErr (St F) :=
  match parseInts cols with
  | none => .error .other
  | some (i :: ty :: rest) =>
    if s.mode = .elements1 then .ok { s with mesh := { s.mesh with elements := Dict.set s.mesh.elements i (ty, rest.take 2, rest.drop 3) } }
    else match rest with
      | n :: rest => .ok { s with mesh := { s.mesh with elements := Dict.set s.mesh.elements i (ty, rest.take n.toNat, rest.drop n.toNat) } }
      | [] => .error .indexError
  | some _ => .error .indexError

/-- A row inside a section, /repo/mlmc/tool/gmsh_io.py:111-184, in the order of the code. -/
def row (co : Codec F) (s : St F) (cols : List Str) : Except PyErr (St F) := do
  let s ← if s.mode = .data then dataRow co s cols else .ok s
  let s ← if s.mode = .physical then physicalRow s cols else .ok s
  let s ← if s.mode = .format then formatRow s cols else .ok s
  if s.mode = .nodes then nodeRow co s cols
  else match s.ftype with
    | none => .error .unboundLocal
    | some t =>
      if t = 0 ∧ 5 < cols.length then elementRow s cols
      else if t = 1 ∧ s.mode = .elements then .error .other
      else .ok s

/-- One pass of the loop over the lines, /repo/mlmc/tool/gmsh_io.py:86-112; an empty line ends the loop. -/
def step (co : Codec F) (s : St F) (l : Str) : Except PyErr (St F) :=
  if s.stopped then .ok s else
  match s.head with
  | some acc => if acc.length = 7 then startData s (acc ++ [l]) else .ok { s with head := some (acc ++ [l]) }
  | none =>
    let line := strip l
    if line.head? = some '$' then .ok (section_ s line)
    else do
      let s ← if s.mode = .none then .ok s else row co s (split line)
      .ok (if line = [] then { s with stopped := true } else s)

/-- The end of the file is read as an empty line. /repo/mlmc/tool/gmsh_io.py:86-88.  Simplification: the exception for a file that ends in the head of element data is always an
`IndexError`. -/
def finish (co : Codec F) (s : St F) : Except PyErr (Mesh F) :=
  match s.head with
  | some _ => .error .indexError
  | none => (step co s []).map (·.mesh)

/-- `GmshIO.read`, /repo/mlmc/tool/gmsh_io.py:73-189. -/
def readFile (co : Codec F) (text : Str) : Except PyErr (Mesh F) := do
  let s ← (lines text).foldlM (step co) {}
  finish co s

/-! ### Writing -/

/-- `' '.join(words)`. /repo/mlmc/tool/gmsh_io.py:207, 215-216, 285. -/
def joinSp : List Str → Str
  | [] => []
  | [w] => w
  | w :: ws => w ++ ' ' :: joinSp ws

/-- `write_element_data`, /repo/mlmc/tool/gmsh_io.py:250-287; `values[0]` of an empty table is an `IndexError`.  `values` is a rectangular array. -/
def elementDataLines (co : Codec F) (eleIds : List ℤ) (name : Str) (values : List (List F)) : Except PyErr (List Str) :=
  match values with
  | [] => .error .indexError
  | v :: _ => .ok (["$ElementData".toList, "1".toList, '"' :: (name ++ ['"']), "1".toList, "0".toList, "3".toList, "0".toList, showInt v.length, showInt values.length] ++
      (List.zipWith (fun i r => showInt i ++ ' ' :: joinSp (r.map co.render)) eleIds values) ++ ["$EndElementData".toList])

/-- Every `print` ends its line, /repo/mlmc/tool/gmsh_io.py:197-217, 281-287. -/
def unlines (ls : List Str) : Str := ls.flatMap (· ++ ['\n'])

/-- `write_fields` with a file name, /repo/mlmc/tool/gmsh_io.py:289-302; what a failed call leaves in the file is not modelled. -/
def writeFields (co : Codec F) (eleIds : List ℤ) (fields : Dict Str (List (List F))) : Except PyErr Str := do
  let ls ← fields.mapM fun e => elementDataLines co eleIds e.1 e.2
  .ok (unlines (["$MeshFormat".toList, "2.2 0 8".toList, "$EndMeshFormat".toList] ++ ls.flatten))

/-- `sorted(d.keys())` of integer keys with their values. /repo/mlmc/tool/gmsh_io.py:205-206, 211-212. -/
def sortedItems {α : Type} (d : Dict ℤ α) : List (ℤ × α) := d.mergeSort fun a b => a.1 ≤ b.1

/-- Comparison of texts by character codes. Order of /repo/mlmc/tool/gmsh_io.py:199. -/
def strLe : Str → Str → Bool
  | [], _ => true
  | _ :: _, [] => false
  | a :: s, b :: t => if a = b then strLe s t else decide (a.val ≤ b.val)

/-- A physical group, /repo/mlmc/tool/gmsh_io.py:200-202. -/
def physicalLine (e : Str × (ℤ × ℤ)) : Str := showInt e.2.2 ++ ' ' :: (showInt e.2.1 ++ " \"".toList ++ e.1 ++ ['"'])

/-- A node, /repo/mlmc/tool/gmsh_io.py:206-208. -/
def nodeLine (co : Codec F) (e : ℤ × List F) : Str := showInt e.1 ++ ' ' :: joinSp (e.2.map co.render)

/-- An element, /repo/mlmc/tool/gmsh_io.py:212-216. -/
def elementLine (e : ℤ × (ℤ × List ℤ × List ℤ)) : Str :=
  showInt e.1 ++ ' ' :: (showInt e.2.1 ++ ' ' :: (showInt e.2.2.1.length ++ ' ' :: (joinSp (e.2.2.1.map showInt) ++ ' ' :: joinSp (e.2.2.2.map showInt))))

/-- `write_ascii`, /repo/mlmc/tool/gmsh_io.py:191-217.  (The file is not closed; its content is complete once it is.) -/
def writeAscii (co : Codec F) (m : Mesh F) : Str :=
  unlines (["$MeshFormat".toList, "2.2 0 8".toList, "$EndMeshFormat".toList, "$PhysicalNames".toList, showInt m.physical.length] ++
    (m.physical.mergeSort fun a b => strLe a.1 b.1).map physicalLine ++ ["$EndPhysicalNames".toList, "$Nodes".toList, showInt m.nodes.length] ++
    (sortedItems m.nodes).map (nodeLine co) ++ ["$EndNodes".toList, "$Elements".toList, showInt m.elements.length] ++
    (sortedItems m.elements).map elementLine ++ ["$EndElements".toList])

end MLMC.Gm
