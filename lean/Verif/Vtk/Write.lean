import Verif.Vtk.Xml

/-!
# The writer of VTK files (`VTKWriter.cc`)

`enc` is `dsUtility::convertVectorToZlibBase64` (`base64.cc:72-119`), whose behaviour is that of the area Base64. The files are texts;
writing to files that are open is assumed to work. Names and values of models are those that
`GetNodeModelList` and the other lists of the region give, in their order; the values of an edge model at the
nodes (`GetScalarValuesOnNodes`, `GetVectorValuesOnNodes`) and those of element models on elements
(`GetScalarValuesOnElements`) are given.
-/

namespace Verif.Vtk

/-- `EdgeModel::DisplayType` -/
inductive EDisp
  | nodisplay | scalar | vector
deriving DecidableEq

/-- A region, as far as the writer looks at it. -/
structure Reg (D : Type) where
  dim : ℕ
  pos : List (D × D × D)
  edges : List (ℕ × ℕ)
  tris : List (ℕ × ℕ × ℕ)
  tets : List (ℕ × ℕ × ℕ × ℕ)
  /-- name, whether it is of type `SCALAR` (otherwise `NODISPLAY`), values -/
  nodeModels : List (Text × Bool × List D)
  /-- name, type, values at the nodes and vectors at the nodes -/
  edgeModels : List (Text × EDisp × List D × List (D × D × D))
  triModels : List (Text × Bool × List D)
  tetModels : List (Text × Bool × List D)

variable {D : Type}

/-- `WriteHeader` (`VTKWriter.cc:34-41`) -/
def writeHeader : Text :=
  ("<?xml version=\"1.0\"?>\n" ++
  "<VTKFile type=\"UnstructuredGrid\" version=\"0.1\" byte_order=\"LittleEndian\" compressor=\"vtkZLibDataCompressor\">\n" ++
  "<UnstructuredGrid>\n").toList

/-- `WriteFooter` (`VTKWriter.cc:43-49`) -/
def writeFooter : Text := "</UnstructuredGrid>\n</VTKFile>\n".toList

/-- `WriteDataArray` (`VTKWriter.cc:51-67`) -/
def writeArr (enc : List D → Text) (vals : List D) (name : Text) (comps : ℕ) : Text :=
  "<DataArray type=\"Float64\"".toList ++
  ((if name ≠ [] then " Name=\"".toList ++ (name ++ "\"".toList) else []) ++
  ((if comps ≠ 1 then " NumberOfComponents=\"".toList ++ (showNat comps ++ "\"".toList) else []) ++
  (" format=\"binary\">\n".toList ++ (enc vals ++ "\n</DataArray>\n".toList))))

/-- `Getx`, `Gety` and `Getz` of all vectors (`VTKWriter.cc:76-82`, `169-176`). -/
def flat3 (l : List (D × D × D)) : List D := l.flatMap fun p => [p.1, p.2.1, p.2.2]

/-- `WritePoints` (`VTKWriter.cc:69-87`) -/
def writePoints (enc : List D → Text) (r : Reg D) : Text :=
  "<Points>\n".toList ++ (writeArr enc (flat3 r.pos) [] 3 ++ "</Points>\n".toList)

/-- The loop over the node models (`VTKWriter.cc:102-127`). -/
def nodeData (enc : List D → Text) (inc : Text → Bool) (r : Reg D) : Text :=
  r.nodeModels.flatMap fun m => if ¬ inc m.1 then [] else if m.2.1 then writeArr enc m.2.2 m.1 1 else []

/-- The first loop over the edge models (`VTKWriter.cc:130-149`). -/
def edgeScalarData (enc : List D → Text) (inc : Text → Bool) (r : Reg D) : Text :=
  r.edgeModels.flatMap fun m => if ¬ inc m.1 then [] else if m.2.1 = .scalar then writeArr enc m.2.2.1 m.1 1 else []

/-- The second loop over the edge models (`VTKWriter.cc:153-191`): `include_test` is not asked. -/
def edgeVectorData (enc : List D → Text) (r : Reg D) : Text :=
  r.edgeModels.flatMap fun m => if m.2.1 = .vector then writeArr enc (flat3 m.2.2.2) m.1 3 else []

/-- `WritePointData` (`VTKWriter.cc:89-194`) -/
def writePointData (enc : List D → Text) (inc : Text → Bool) (r : Reg D) : Text :=
  if r.nodeModels = [] ∧ r.edgeModels = [] then []
  else "<PointData>\n".toList ++ (nodeData enc inc r ++ (edgeScalarData enc inc r ++ (edgeVectorData enc r ++ "</PointData>\n".toList)))

/-- `WriteElementData` (`VTKWriter.cc:196-259`): `include_test` is not asked for models on tetrahedra. -/
def writeElementData (enc : List D → Text) (inc : Text → Bool) (r : Reg D) : Text :=
  if r.triModels = [] ∧ r.tetModels = [] then []
  else "<CellData>\n".toList ++
    ((r.triModels.flatMap fun m => if ¬ inc m.1 then [] else if m.2.1 then writeArr enc m.2.2 m.1 1 else []) ++
    ((r.tetModels.flatMap fun m => if m.2.1 then writeArr enc m.2.2 m.1 1 else []) ++ "</CellData>\n".toList))

/-- The three arrays of `WriteLines`, `WriteTriangles` and `WriteTetrahedrons` (`VTKWriter.cc:281-300`). -/
def writeCells (connectivity offsets types : Text) : Text :=
  "<Cells>\n".toList ++
  ("<DataArray type=\"Int32\" Name=\"connectivity\" format=\"ascii\">\n".toList ++ (connectivity ++ ("\n</DataArray>\n".toList ++
  ("<DataArray type=\"Int32\" Name=\"offsets\" format=\"ascii\">\n".toList ++ (offsets ++ ("\n</DataArray>\n".toList ++
  ("<DataArray type=\"UInt8\" Name=\"types\" format=\"ascii\">\n".toList ++ (types ++ ("\n</DataArray>\n".toList ++
  "</Cells>\n".toList)))))))))

/-- The loop that writes offsets: `off`, `off + k`, ... (`VTKWriter.cc:269-279`). -/
def offsetsText (k : ℕ) : ℕ → ℕ → Text
  | _, 0 => []
  | off, n + 1 => ' ' :: showNat off ++ offsetsText k (off + k) n

/-- `WriteLines` (`VTKWriter.cc:261-301`) -/
def writeLines (r : Reg D) : Text :=
  writeCells (r.edges.flatMap fun e => ' ' :: showNat e.1 ++ (' ' :: showNat e.2)) (offsetsText 2 2 r.edges.length)
    (r.edges.flatMap fun _ => " 3".toList)

/-- `WriteTriangles` (`VTKWriter.cc:303-347`) -/
def writeTriangles (r : Reg D) : Text :=
  writeCells (r.tris.flatMap fun e => ' ' :: showNat e.1 ++ (' ' :: showNat e.2.1 ++ (' ' :: showNat e.2.2))) (offsetsText 3 3 r.tris.length)
    (r.tris.flatMap fun _ => " 5".toList)

/-- `WriteTetrahedrons` (`VTKWriter.cc:349-394`) -/
def writeTetrahedrons (r : Reg D) : Text :=
  writeCells (r.tets.flatMap fun e => ' ' :: showNat e.1 ++ (' ' :: showNat e.2.1 ++ (' ' :: showNat e.2.2.1 ++ (' ' :: showNat e.2.2.2))))
    (offsetsText 4 4 r.tets.length) (r.tets.flatMap fun _ => " 10".toList)

/-- `num_cells` (`VTKWriter.cc:401-418`) -/
def numCells (r : Reg D) : ℕ :=
  if r.dim = 1 then r.edges.length else if r.dim = 2 then r.tris.length else if r.dim = 3 then r.tets.length else 0

/-- `WriteRegionWithEdgeData` (`VTKWriter.cc:396-451`) -/
def writeRegion (enc : List D → Text) (inc : Text → Bool) (r : Reg D) : Text :=
  "<Piece NumberOfPoints=\"".toList ++ (showNat r.pos.length ++ ("\" NumberOfCells=\"".toList ++ (showNat (numCells r) ++ ("\">\n".toList ++
  (writePoints enc r ++
  ((if r.dim = 1 then writeLines r else if r.dim = 2 then writeTriangles r else if r.dim = 3 then writeTetrahedrons r else []) ++
  (writePointData enc inc r ++
  ((if r.dim = 2 ∨ r.dim = 3 then writeElementData enc inc r else []) ++ "</Piece>\n".toList))))))))

/-- The file of a region (`VTKWriter.cc:517-522`). -/
def vtuFile (enc : List D → Text) (inc : Text → Bool) (r : Reg D) : Text :=
  writeHeader ++ (writeRegion enc inc r ++ (writeFooter ++ "\n".toList))

/-- The name of the file of the region with number `i` (`VTKWriter.cc:502`). -/
def vtuName (filename : Text) (i : ℕ) : Text := filename ++ ("_".toList ++ (showNat i ++ ".vtu".toList))

/-- The file that lists the others, for ParaView (`VTKWriter.cc:531-546`). -/
def vtmFile (names : List Text) : Text :=
  ("<?xml version=\"1.0\"?>\n" ++
  "<VTKFile type=\"vtkMultiBlockDataSet\" version=\"0.1\" byte_order=\"LittleEndian\" compressor=\"vtkZLibDataCompressor\">\n" ++
  "  <vtkMultiBlockDataSet>\n").toList ++
  ((names.zipIdx.flatMap fun p => "    <DataSet group=\"".toList ++ (showNat p.2 ++ ("\" dataset=\"".toList ++ (showNat 0 ++ ("\" file=\"".toList ++
    (p.1 ++ "\"/>\n".toList)))))) ++
  "  </vtkMultiBlockDataSet>\n</VTKFile>\n".toList)

/-- The file that lists the others, for VisIt (`VTKWriter.cc:535-543`). -/
def visitFile (names : List Text) : Text :=
  "!NBLOCKS ".toList ++ (showNat names.length ++ ('\n' :: names.flatMap fun n => n ++ ['\n']))

/-- `WriteSingleDevice` (`VTKWriter.cc:453-555`): what it returns, and the files of a device, by name. `regs` is the
list of regions of the device, by name; `none` when there is no device. `canOpen` tells which files can be opened;
when one cannot, `open` sets the `failbit` and not the `badbit`, so that the tests by `bad` (`474`, `479`, `506`) do
not see it, and nothing is written to it. -/
def writeDevice (canOpen : Text → Bool) (enc : List D → Text) (inc : Text → Bool) (filename : Text) :
    Option (List (Text × Reg D)) → Bool × List (Text × Text)
  | none => (false, [])
  | some regs =>
    let names := (List.range regs.length).map (vtuName filename)
    (true, ((names.zip (regs.map fun r => vtuFile enc inc r.2)) ++
      [(filename ++ ".vtm".toList, vtmFile names), (filename ++ ".visit".toList, visitFile names)]).filter fun f => canOpen f.1)

end Verif.Vtk
