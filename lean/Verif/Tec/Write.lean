import Verif.Vtk.Write

/-!
# The writer of Tecplot files (`TecplotWriter.cc`)

`fmt` is what `operator<<` of an output stream makes of a `double` (six digits: the line that would set fifteen is commented
out, `TecplotWriter.cc:407`). Names and values of models are those that the lists of the region give; the values of an edge
model at the nodes and those of element models on elements are given (for a uniform model they are all the same, which
is what `WriteUniform` writes).
-/

namespace Verif.Tec
open Verif.Vtk (Text showNat EDisp isWs)

/-- A region, as far as the writer looks at it. The elements are the edges, triangles or tetrahedra, by the dimension of the
device, with the indices of their nodes. -/
structure Reg (D : Type) where
  nodes : ℕ
  elems : List (List ℕ)
  /-- name, whether it is of type `SCALAR` (otherwise `NODISPLAY`), values -/
  nodeModels : List (Text × Bool × List D)
  /-- name, type, values at the nodes and vectors at the nodes -/
  edgeModels : List (Text × EDisp × List D × List (D × D × D))
  /-- models on triangles or tetrahedra -/
  elemModels : List (Text × Bool × List D)

structure Dev (D : Type) where
  dim : ℕ
  regs : List (Text × Reg D)

variable {D : Type}

/-! ### Long lines -/

/-- `std::string::rfind(c, seek)`: the last place not after `seek` with this character. -/
def rfind (s : Text) (c : Char) (seek : ℕ) : Option ℕ := ((List.range (seek + 1)).filter fun i => s[i]? = some c).getLast?

/-- `substr(start, pos - start)`; the difference wraps around when `pos < start`. -/
def piece (s : Text) (start pos : ℕ) : Text := if pos < start then s.drop start else (s.drop start).take (pos - start)

/-- The loop of `BreakLine` (`TecplotWriter.cc:46-90`); `none` when it does not end in so many rounds. -/
def breakFrom (s : Text) : ℕ → ℕ → Option Text
  | 0, _ => none
  | n + 1, start =>
    let seek := start + 29999
    if s.length - 1 < seek then some (s.drop start)
    else
      let r : Text × ℕ :=
        match rfind s ' ' seek with
        | some pos => (piece s start pos ++ ['\n'], pos + 1)
        | none =>
          match rfind s '\n' seek with
          | some pos => (piece s start pos ++ ['\n'], pos + 1)
          | none => ((s.drop start).take seek ++ ['\n'], seek + 1)
      if s.length ≤ r.2 then some r.1 else (breakFrom s n r.2).map (r.1 ++ ·)

/-- `BreakLine` (`TecplotWriter.cc:32-91`) -/
def breakLine (s : Text) : Option Text :=
  if s = [] then some [] else if s.length < 30000 then some s else breakFrom s (s.length + 1) 0

/-! ### Blocks of values -/

/-- `WriteBlock` (`TecplotWriter.cc:94-107`) -/
def writeBlock (fmt : D → Text) : List D → Text
  | [] => []
  | v :: vs => fmt v ++ vs.flatMap fun w => ' ' :: fmt w

/-- `WriteUniform` (`TecplotWriter.cc:109-131`) -/
def writeUniform (fmt : D → Text) (n : ℕ) (v : D) : Text :=
  (if n ≠ 0 then fmt v else []) ++ (List.range (n - 1)).flatMap fun _ => ' ' :: fmt v

/-- `WriteNodeBlock` (`TecplotWriter.cc:133-159`) -/
def writeNodeBlock (fmt : D → Text) (zero : D) (r : Reg D) (name : Text) : Option Text :=
  breakLine ((match r.nodeModels.lookup name with
    | some m => writeBlock fmt m.2
    | none => writeUniform fmt r.nodes zero) ++ ['\n'])

/-- `WriteEdgeBlockScalar` (`TecplotWriter.cc:161-189`) -/
def writeEdgeBlockScalar (fmt : D → Text) (zero : D) (r : Reg D) (name : Text) : Option Text :=
  breakLine ((match r.edgeModels.lookup name with
    | some m => writeBlock fmt m.2.1
    | none => writeUniform fmt r.nodes zero) ++ ['\n'])

/-- `WriteTriangleEdgeBlockScalar` and `WriteTetrahedronEdgeBlockScalar` (`TecplotWriter.cc:191-253`) -/
def writeElemBlock (fmt : D → Text) (zero : D) (r : Reg D) (name : Text) : Option Text :=
  breakLine ((match r.elemModels.lookup name with
    | some m => writeBlock fmt m.2
    | none => writeUniform fmt r.elems.length zero) ++ ['\n'])

/-- One component of a vector (`TecplotWriter.cc:283-296`). -/
def writeComp (fmt : D → Text) (vs : List D) : Text := vs.flatMap fun v => ' ' :: fmt v

/-- The texts of the three components (`TecplotWriter.cc:262-305`); `none` when an assertion fails. -/
def vecTexts (fmt : D → Text) (zero : D) (r : Reg D) (name : Text) : Option (Text × Text × Text) :=
  match r.edgeModels.lookup name with
  | some m =>
    if m.1 = .vector ∧ m.2.2 ≠ [] then
      some (writeComp fmt (m.2.2.map (·.1)), writeComp fmt (m.2.2.map (·.2.1)), writeComp fmt (m.2.2.map (·.2.2)))
    else none
  | none => some (writeUniform fmt r.nodes zero, writeUniform fmt r.nodes zero, writeUniform fmt r.nodes zero)

/-- `WriteEdgeBlockVector` (`TecplotWriter.cc:256-314`) -/
def writeEdgeBlockVector (fmt : D → Text) (zero : D) (dim : ℕ) (r : Reg D) (name : Text) : Option Text :=
  match vecTexts fmt zero r name with
  | none => none
  | some xyz =>
    match breakLine (xyz.1 ++ ['\n']), (if 1 < dim then breakLine (xyz.2.1 ++ ['\n']) else some []),
      (if 2 < dim then breakLine (xyz.2.2 ++ ['\n']) else some []) with
    | some x, some y, some z => some (x ++ (y ++ z))
    | _, _, _ => none

/-- A loop that writes a text for each name (`TecplotWriter.cc:316-359`). -/
def writeAll (f : Text → Option Text) : List Text → Option Text
  | [] => some []
  | n :: ns => do
    let x ← f n
    let y ← writeAll f ns
    some (x ++ y)

/-- `WriteEdges`, `WriteTriangles`, `WriteTetrahedra` (`TecplotWriter.cc:361-398`) -/
def writeConn (elems : List (List ℕ)) : Text :=
  elems.flatMap fun e =>
    (match e with
      | [] => []
      | i :: is => showNat (i + 1) ++ is.flatMap fun j => ' ' :: showNat (j + 1)) ++ ['\n']

/-! ### Which models are written -/

/-- Order of `std::string`. -/
def lexLt : Text → Text → Bool
  | _, [] => false
  | [], _ :: _ => true
  | a :: as, b :: bs => if a < b then true else if b < a then false else lexLt as bs

/-- `std::set::insert` -/
def ins (n : Text) : List Text → List Text
  | [] => [n]
  | m :: l => if m = n then m :: l else if lexLt n m then n :: m :: l else m :: ins n l

/-- The sets of names (`TecplotWriter.cc:424-429`). -/
structure Sets where
  nodeNo : List Text := []
  nodeSc : List Text := []
  edgeNo : List Text := []
  edgeSc : List Text := []
  edgeVec : List Text := []
  elem : List Text := []

/-- One node model (`TecplotWriter.cc:437-487`). -/
def addNode (inc : Text → Bool) (s : Sets) (m : Text × Bool × List D) : Sets :=
  if m.1 = ['x'] ∨ m.1 = ['y'] ∨ m.1 = ['z'] then s
  else if ¬ inc m.1 then s
  else if m.2.1 = false then (if m.1 ∈ s.nodeSc then s else { s with nodeNo := ins m.1 s.nodeNo })
  else if m.1 ∈ s.nodeNo then s else { s with nodeSc := ins m.1 s.nodeSc }

/-- One edge model (`TecplotWriter.cc:490-566`). -/
def addEdge (inc : Text → Bool) (s : Sets) (m : Text × EDisp × List D × List (D × D × D)) : Sets :=
  if ¬ inc m.1 then s
  else match m.2.1 with
    | .nodisplay => if m.1 ∈ s.edgeVec then s else if m.1 ∈ s.edgeSc then s else { s with edgeNo := ins m.1 s.edgeNo }
    | .scalar => if m.1 ∈ s.edgeVec then s else if m.1 ∈ s.edgeNo then s else { s with edgeSc := ins m.1 s.edgeSc }
    | .vector => if m.1 ∈ s.edgeSc then s else if m.1 ∈ s.edgeNo then s else { s with edgeVec := ins m.1 s.edgeVec }

/-- One model on triangles or tetrahedra (`TecplotWriter.cc:580-611`). -/
def addElem (inc : Text → Bool) (s : Sets) (m : Text × Bool × List D) : Sets :=
  if ¬ inc m.1 then s else if m.2.1 then { s with elem := ins m.1 s.elem } else s

/-- One region (`TecplotWriter.cc:432-612`). -/
def addReg (inc : Text → Bool) (s : Sets) (r : Text × Reg D) : Sets :=
  r.2.elemModels.foldl (addElem inc) (r.2.edgeModels.foldl (addEdge inc) (r.2.nodeModels.foldl (addNode inc) s))

def collect (inc : Text → Bool) (d : Dev D) : Sets := d.regs.foldl (addReg inc) {}

/-! ### The file -/

/-- The coordinates (`TecplotWriter.cc:627-641`). -/
def coords (dim : ℕ) : List Text := if dim = 1 then [['x']] else if dim = 2 then [['x'], ['y']] else [['x'], ['y'], ['z']]

def quoted (n : Text) : Text := '"' :: n ++ ['"']

/-- `, "name"` -/
def comma (n : Text) : Text := ", ".toList ++ quoted n

/-- The components of a vector (`TecplotWriter.cc:655-689`); `none` is the failed assertion. -/
def vecNames (dim : ℕ) (n : Text) : Option (List Text) :=
  if dim = 1 then some [n ++ "_x_onNode".toList]
  else if dim = 2 then some [n ++ "_x_onNode".toList, n ++ "_y_onNode".toList]
  else if dim = 3 then some [n ++ "_x_onNode".toList, n ++ "_y_onNode".toList, n ++ "_z_onNode".toList]
  else none

/-- The line of the variables (`TecplotWriter.cc:627-700`). -/
def varLine (dim : ℕ) (s : Sets) : Option Text := do
  let vs ← s.edgeVec.mapM (vecNames dim)
  let cs := match coords dim with
    | [] => []
    | c :: cs => quoted c ++ cs.flatMap comma
  some ("VARIABLES = ".toList ++ (cs ++ (s.nodeSc.flatMap comma ++ (s.edgeSc.flatMap comma ++ (vs.flatten.flatMap comma ++ (s.elem.flatMap comma ++ ['\n']))))))

/-- `cell_variables` (`TecplotWriter.cc:624-696`) -/
def cellVars (dim : ℕ) (s : Sets) : List ℕ :=
  let varloc := (coords dim).length + s.nodeSc.length + s.edgeSc.length + dim * s.edgeVec.length
  (List.range s.elem.length).map fun i => varloc + i + 1

/-- `cell_variables_string` (`TecplotWriter.cc:705-718`) -/
def cellText (l : List ℕ) : Text :=
  match l with
  | [] => []
  | i :: is => ", VARLOCATION=([".toList ++ (showNat i ++ ((is.flatMap fun j => ',' :: showNat j) ++ "]=CELLCENTERED)".toList))

def zoneType (dim : ℕ) : Text :=
  if dim = 1 then "FELINESEG".toList else if dim = 2 then "FETRIANGLE".toList else "FETETRAHEDRON".toList

/-- The line of a zone (`TecplotWriter.cc:727-758`). -/
def zoneLine (dim : ℕ) (cells : Text) (r : Text × Reg D) : Text :=
  "ZONE T=\"".toList ++ (r.1 ++ ("\" NODES=".toList ++ (showNat r.2.nodes ++ (", ELEMENTS=".toList ++ (showNat r.2.elems.length ++
    (", DATAPACKING=BLOCK, ZONETYPE=".toList ++ (zoneType dim ++ (cells ++ ['\n']))))))))

/-- The values on the elements (`TecplotWriter.cc:766-773`). -/
def writeElems (fmt : D → Text) (zero : D) (dim : ℕ) (s : Sets) (r : Reg D) : Option Text :=
  if dim = 2 ∨ dim = 3 then writeAll (writeElemBlock fmt zero r) s.elem else some []

/-- One zone (`TecplotWriter.cc:720-783`). -/
def writeZone (fmt : D → Text) (zero : D) (dim : ℕ) (s : Sets) (r : Text × Reg D) : Option Text := do
  let b1 ← writeAll (writeNodeBlock fmt zero r.2) (coords dim)
  let b2 ← writeAll (writeNodeBlock fmt zero r.2) s.nodeSc
  let b3 ← writeAll (writeEdgeBlockScalar fmt zero r.2) s.edgeSc
  let b4 ← writeAll (writeEdgeBlockVector fmt zero dim r.2) s.edgeVec
  let b5 ← writeElems fmt zero dim s r.2
  some (zoneLine dim (cellText (cellVars dim s)) r ++ (b1 ++ (b2 ++ (b3 ++ (b4 ++ (b5 ++ writeConn r.2.elems))))))

def writeZones (fmt : D → Text) (zero : D) (dim : ℕ) (s : Sets) : List (Text × Reg D) → Option Text
  | [] => some []
  | r :: rs => do
    let x ← writeZone fmt zero dim s r
    let y ← writeZones fmt zero dim s rs
    some (x ++ y)

/-- `WriteSingleDevice` (`TecplotWriter.cc:401-791`) for a device that exists: the file; `none` when an assertion fails or
the program does not end. -/
def writeTec (fmt : D → Text) (zero : D) (inc : Text → Bool) (dname : Text) (d : Dev D) : Option Text := do
  let s := collect inc d
  let v ← varLine d.dim s
  let v ← breakLine v
  let z ← writeZones fmt zero d.dim s d.regs
  some ("TITLE = ".toList ++ (quoted dname ++ ('\n' :: (v ++ (z ++ ['\n'])))))

end Verif.Tec
