import Verif.Assembly.Model

/-!
# Contact equations (`src/Equation/ContactEquation.cc`, `src/AutoEquation/ExprContactEquation.cc`)
-/

namespace Verif.Assembly

/-- A contact: name, region, nodes, names of its contact equations (`src/Geometry/Contact.hh`). -/
structure ContactInfo where
  name : String
  region : String
  nodes : List Nat
  eqs : List String
deriving DecidableEq, Repr

/-- The loop of `GetActiveNodes` over the contacts at one coordinate, `ContactEquation.cc` 126-157.
`addToList` is still true when the loop ends without a decision. The list which is searched for the
equation name is that of the contact `c` itself (line 141), not that of the other contact. -/
def activeLoop (c : ContactInfo) (eqname : String) : List ContactInfo → Bool
  | [] => true
  | o :: os =>
    if o.region = c.region then
      if o.name = c.name then true
      else if c.eqs.contains eqname then false
      else activeLoop c eqname os
    else activeLoop c eqname os

/-- The contacts at the coordinate of node `n` of region `region`, in the order in which `Device::AddContact`
keeps them (`src/Geometry/Device.cc` 117-120: sorted by address, hence in one arbitrary order `all` of the
contacts of the device).  Contacts of other regions at the coordinate are skipped by the loop and are left
out here. -/
def contactsAt (all : List ContactInfo) (region : String) (n : Nat) : List ContactInfo :=
  all.filter fun o => decide (o.region = region) && o.nodes.contains n

/-- `ContactEquation::GetActiveNodes`, `ContactEquation.cc` 89-164. -/
def activeNodes (all : List ContactInfo) (c : ContactInfo) (eqname : String) : List Nat :=
  c.nodes.filter fun n => activeLoop c eqname (contactsAt all c.region n)

section
variable {K : Type} [CommRing K]

/-- The equation number of the circuit node of a contact equation: `ContactEquation.cc` 455-468, 720-733.
`circ` is `nullopt` for a name which is no circuit node (fatal), `some none` for ground (`size_t(-1)`). -/
def circuitCol (circ : String → Option (Option Nat)) (cnode : String) : Option (Option Nat) :=
  if cnode = "" then some none else circ cnode

/-- Sites at a node: the edges of `GetNodeToEdgeList()[n]` (`src/Geometry/Region.cc` 364-382, sorted by
index), or the edges with this end in the elements of `GetNodeToTriangleList()[n]`
(`ContactEquation.cc` 950-961) / `GetNodeToTetrahedronList()[n]`.  Simplification: every edge of an element
connects nodes of the element, so that filtering all element edges by their ends gives the same edges in the
same order; edges have different ends. -/
def sitesAt (sites : List Site) (c : Nat) : List Site := sites.filter fun s => s.n0 == c || s.n1 == c

/-- Interior contact residual, `AssembleEdgeEquation` 735-778, `AssembleTriangleEdgeEquation` 932-981,
`AssembleTetrahedronEdgeEquation` 1171-1221. -/
def contactSiteRHS (g : Topo) (eq : Nat) (sites : List Site) (active : List Nat) (flux : Nat → K)
    (n0s n1s : K) : List (VEntry K) :=
  active.flatMap fun c => (sitesAt sites c).flatMap fun s =>
    if s.n0 = c then [(g.num eq s.n0, n0s * flux s.idx)]
    else if s.n1 = c then [(g.num eq s.n1, n1s * flux s.idx)]
    else []

/-- Interior contact matrix for one variable, `AssembleEdgeEquation` 810-846,
`AssembleTriangleEdgeEquation` 1022-1069, `AssembleTetrahedronEdgeEquation` 1262-1318. -/
def contactSiteJacobian (g : Topo) (eq eqv : Nat) (sites : List Site) (active : List Nat)
    (d0 d1 : Nat → K) (dopp : List (Nat → K)) (n0s n1s : K) : List (MEntry K) :=
  active.flatMap fun c => (sitesAt sites c).flatMap fun s =>
    if s.n0 = c then
      [(g.num eq s.n0, g.num eqv s.n0, n0s * d0 s.idx), (g.num eq s.n0, g.num eqv s.n1, n0s * d1 s.idx)] ++
        (s.opp.zip dopp).map fun (o, d) => (g.num eq s.n0, g.num eqv o, n0s * d s.idx)
    else if s.n1 = c then
      [(g.num eq s.n1, g.num eqv s.n1, n1s * d1 s.idx), (g.num eq s.n1, g.num eqv s.n0, n1s * d0 s.idx)] ++
        (s.opp.zip dopp).map fun (o, d) => (g.num eq s.n1, g.num eqv o, n1s * d s.idx)
    else []

/-- Interior contact matrix, column of the circuit node: `ContactEquation.cc` 848-886, 1072-1125,
1320-1378. -/
def contactSiteCircuit (g : Topo) (eq : Nat) (sites : List Site) (active : List Nat) (ccol : Nat)
    (d : Nat → K) (n0s n1s : K) : List (MEntry K) :=
  active.flatMap fun c => (sitesAt sites c).flatMap fun s =>
    if s.n0 = c then [(g.num eq s.n0, ccol, n0s * d s.idx)]
    else if s.n1 = c then [(g.num eq s.n1, ccol, n1s * d s.idx)]
    else []

/-- The derivative models of one variable in the contact functions: `ContactEquation.cc` 783-808, 984-1020.
Only the first derivative model is checked; if it exists the others are dereferenced. -/
def contactVarModels (sh : Shape) (tbl : String → Option (Nat → K)) (model var : String) :
    Option (Option ((Nat → K) × (Nat → K) × List (Nat → K))) :=
  match tbl (derName model var ++ sh.s0) with
  | none => some none
  | some d0 =>
    match tbl (derName model var ++ sh.s1), allSome (sh.sopp.map fun s => tbl (derName model var ++ s)) with
    | some d1, some dopp => some (some (d0, d1, dopp))
    | _, _ => none

/-- One variable of the interior contact matrix. -/
def contactSiteVar (g : Topo) (sh : Shape) (tbl : String → Option (Nat → K)) (active : List Nat)
    (eq : Nat) (model : String) (ec : Nat → K) (n0s n1s : K) (var : String) : Option (List (MEntry K)) :=
  match contactVarModels sh tbl model var with
  | none => none
  | some none => some []
  | some (some (d0, d1, dopp)) =>
    (g.eqIndex (g.eqOfVar var)).map fun eqv =>
      contactSiteJacobian g eq eqv sh.sites active (times ec d0) (times ec d1)
        (dopp.map fun d => times ec d) n0s n1s

/-- The circuit node column, present if there is a circuit node and a derivative model:
`ContactEquation.cc` 848-856, 1072-1080, 1320-1328. -/
def contactSiteCirc (g : Topo) (sh : Shape) (tbl : String → Option (Nat → K)) (active : List Nat)
    (eq : Nat) (cnode model : String) (ec : Nat → K) (n0s n1s : K) (ccol : Option Nat) :
    List (MEntry K) :=
  match ccol, tbl (derName model cnode) with
  | some cc, some dc => contactSiteCircuit g eq sh.sites active cc (times ec dc) n0s n1s
  | _, _ => []

/-- `AssembleEdgeEquation`, `AssembleTriangleEdgeEquation`, `AssembleTetrahedronEdgeEquation`:
`ContactEquation.cc` 693-1379. -/
def contactSiteAssemble (g : Topo) (sh : Shape) (tbl : String → Option (Nat → K))
    (circ : String → Option (Option Nat)) (active : List Nat) (name cnode model couple : String)
    (n0s n1s : K) (w : What) : Option (List (MEntry K) × List (VEntry K)) := do
  let eq ← g.eqIndex name
  let ec ← tbl couple
  let ccol ← circuitCol circ cnode
  let v ← if w.doRhs then
      (tbl model).map fun em => contactSiteRHS g eq sh.sites active (times ec em) n0s n1s
    else some []
  let m ← if w.doMat then
      collect g.vars (contactSiteVar g sh tbl active eq model ec n0s n1s)
    else some []
  let mc := if w.doMat then contactSiteCirc g sh tbl active eq cnode model ec n0s n1s ccol else []
  return (m ++ mc, v)

/-- One variable of `AssembleNodeEquation`, `ContactEquation.cc` 505-542. -/
def contactNodeVar (g : Topo) (tbl : String → Option (Nat → K)) (active : List Nat) (eq : Nat)
    (model : String) (nv : Nat → K) (var : String) : Option (List (MEntry K)) :=
  match tbl (derName model var) with
  | none => some []
  | some ndm =>
    (g.eqIndex (g.eqOfVar var)).map fun eqv =>
      active.map fun c => (g.num eq c, g.num eqv c, nv c * ndm c)

/-- The circuit node column of `AssembleNodeEquation`, `ContactEquation.cc` 543-568. -/
def contactNodeCirc (g : Topo) (tbl : String → Option (Nat → K)) (active : List Nat) (eq : Nat)
    (cnode model : String) (nv : Nat → K) (ccol : Option Nat) : List (MEntry K) :=
  match ccol, tbl (derName model cnode) with
  | some cc, some dc => active.map fun c => (g.num eq c, cc, nv c * dc c)
  | _, _ => []

/-- `AssembleNodeEquation`, `ContactEquation.cc` 428-569 (without the permutation, see
`contactPermutation`). -/
def contactNodeAssemble (g : Topo) (T : Tables K) (circ : String → Option (Option Nat))
    (active : List Nat) (name cnode model : String) (w : What) :
    Option (List (MEntry K) × List (VEntry K)) := do
  let eq ← g.eqIndex name
  let nv ← T.node g.nodeVolume
  let ccol ← circuitCol circ cnode
  let v ← if w.doRhs then
      (T.node model).map fun nm => active.map fun c => (g.num eq c, nv c * nm c)
    else some []
  let m ← if w.doMat then collect g.vars (contactNodeVar g T.node active eq model nv)
    else some []
  let mc := if w.doMat then contactNodeCirc g T.node active eq cnode model nv ccol else []
  return (m ++ mc, v)

/-- The rows of the bulk equation that a contact equation removes: `AssembleNodeEquation`,
`ContactEquation.cc` 470-478 (only when the contact equation has a node model,
`ExprContactEquation.cc` 65-72). -/
def contactPermutation (g : Topo) (eq : Nat) (active : List Nat) : List Nat :=
  active.map fun c => g.num eq c

/-! ### Contact equations on circuit nodes -/

/-- `bothNodesOnContact`, `ContactEquation.cc` 37-43. -/
def bothOn [DecidableEq K] (active : List Nat) (s : Site) (n0s n1s : K) : Bool :=
  decide (n0s = -n1s) && active.contains s.n0 && active.contains s.n1

/-- `GetHeadOrTail` with `none_sign = 0`, `ContactEquation.cc` 45-58. -/
def headOrTail (s : Site) (c : Nat) (n0s n1s : K) : K :=
  if s.n0 = c then n0s else if s.n1 = c then n1s else 0

/-- The flux of the edges at node `c`, leaving out edges with both ends on the contact. -/
def nodeFlux [DecidableEq K] (sites : List Site) (active : List Nat) (flux : Nat → K) (n0s n1s : K)
    (c : Nat) : K :=
  (((sitesAt sites c).filter fun s => !bothOn active s n0s n1s).map fun s =>
    headOrTail s c n0s n1s * flux s.idx).sum

/-- `integrateEdgeModelOverNodes`, `integrateTriangleEdgeModelOverNodes`,
`integrateTetrahedronEdgeModelOverNodes`: `ContactEquation.cc` 229-407 (`ch` starts at 0 and is summed node by
node; an empty model name gives 0). -/
def integrateSites [DecidableEq K] (sh : Shape) (tbl : String → Option (Nat → K)) (active : List Nat)
    (model couple : String) (n0s n1s : K) : Option K :=
  if model = "" then some 0
  else do
    let em ← tbl model
    let ec ← tbl couple
    return (active.map fun c => nodeFlux sh.sites active (times ec em) n0s n1s c).sum

/-- `integrateNodeModelOverNodes`, `ContactEquation.cc` 189-226. -/
def integrateNodes (g : Topo) (tbl : String → Option (Nat → K)) (active : List Nat) (model : String) :
    Option K :=
  if model = "" then some 0
  else do
    let nm ← tbl model
    let nv ← tbl g.nodeVolume
    return (active.map fun c => nv c * nm c).sum

/-- Residual on the circuit row: `AssembleEdgeEquationOnCircuit`, `ContactEquation.cc` 1449-1470: one entry
per contact node. (The element variants, 1662-1692 and 1905-1943, push one entry per contact node and
element; simplification: here their sum per node.) -/
def circuitSiteRHS [DecidableEq K] (sites : List Site) (active : List Nat) (crow : Nat) (flux : Nat → K)
    (n0s n1s : K) : List (VEntry K) :=
  active.map fun c => (crow, nodeFlux sites active flux n0s n1s c)

/-- Matrix on the circuit row for one variable: `ContactEquation.cc` 1508-1556, 1736-1800, 1988-2057: for each
edge the derivatives at the other nodes, and after the edges the accumulated derivative at the contact node
itself. -/
def circuitSiteJacobian [DecidableEq K] (g : Topo) (eqv : Nat) (sites : List Site) (active : List Nat)
    (crow : Nat) (d0 d1 : Nat → K) (dopp : List (Nat → K)) (n0s n1s : K) : List (MEntry K) :=
  active.flatMap fun c =>
    let es := (sitesAt sites c).filter fun s => !bothOn active s n0s n1s
    (es.flatMap fun s =>
      if s.n0 = c then
        (crow, g.num eqv s.n1, n0s * d1 s.idx) ::
          (s.opp.zip dopp).map fun (o, d) => (crow, g.num eqv o, n0s * d s.idx)
      else
        (crow, g.num eqv s.n0, n1s * d0 s.idx) ::
          (s.opp.zip dopp).map fun (o, d) => (crow, g.num eqv o, n1s * d s.idx)) ++
    [(crow, g.num eqv c, (es.map fun s => if s.n0 = c then n0s * d0 s.idx else n1s * d1 s.idx).sum)]

/-- Derivative with respect to the circuit node itself: `ContactEquation.cc` 1559-1604, 1803-1850,
2062-2111. -/
def circuitSiteSelf [DecidableEq K] (sites : List Site) (active : List Nat) (crow : Nat) (d : Nat → K)
    (n0s n1s : K) : List (MEntry K) :=
  active.flatMap fun c =>
    ((sitesAt sites c).filter fun s => !bothOn active s n0s n1s).map fun s =>
      (crow, crow, headOrTail s c n0s n1s * d s.idx)

/-- The block for the derivative with respect to the circuit node, present if there is a derivative model. -/
def circuitSelf [DecidableEq K] (sh : Shape) (tbl : String → Option (Nat → K)) (active : List Nat)
    (crow : Nat) (cnode model : String) (ec : Nat → K) (n0s n1s : K) : List (MEntry K) :=
  match tbl (derName model cnode) with
  | none => []
  | some dc => circuitSiteSelf sh.sites active crow (times ec dc) n0s n1s

/-- One variable of the circuit row. -/
def circuitSiteVar [DecidableEq K] (g : Topo) (sh : Shape) (tbl : String → Option (Nat → K))
    (active : List Nat) (crow : Nat) (model : String) (ec : Nat → K) (n0s n1s : K) (var : String) :
    Option (List (MEntry K)) :=
  match contactVarModels sh tbl model var with
  | none => none
  | some none => some []
  | some (some (d0, d1, dopp)) =>
    (g.eqIndex (g.eqOfVar var)).map fun eqv =>
      circuitSiteJacobian g eqv sh.sites active crow (times ec d0) (times ec d1)
        (dopp.map fun d => times ec d) n0s n1s

/-- `AssembleEdgeEquationOnCircuit`, `AssembleTriangleEdgeEquationOnCircuit`,
`AssembleTetrahedronEdgeEquationOnCircuit`: `ContactEquation.cc` 1395-2125.
`inLoop`: in the edge and the triangle variant the block for the derivative with respect to the circuit node is
inside the loop over the variables (1559-1604, 1803-1850), in the tetrahedron variant it is after the loop
(2062-2111). -/
def circuitSiteAssemble [DecidableEq K] (g : Topo) (sh : Shape) (inLoop : Bool)
    (tbl : String → Option (Nat → K)) (circ : String → Option (Option Nat)) (active : List Nat)
    (cnode model couple : String) (n0s n1s : K) (w : What) :
    Option (List (MEntry K) × List (VEntry K)) :=
  match circ cnode with
  | none => none
  | some none => some ([], [])
  | some (some crow) => do
    let ec ← tbl couple
    let v ← if w.doRhs then
        (tbl model).map fun em => circuitSiteRHS sh.sites active crow (times ec em) n0s n1s
      else some []
    let self := circuitSelf sh tbl active crow cnode model ec n0s n1s
    let m ← if w.doMat then
        collect g.vars fun var =>
          (circuitSiteVar g sh tbl active crow model ec n0s n1s var).map fun l =>
            if inLoop then l ++ self else l
      else some []
    let mc := if w.doMat && !inLoop then self else []
    return (m ++ mc, v)

/-- One variable of `AssembleNodeEquationOnCircuit`, `ContactEquation.cc` 627-666. -/
def circuitNodeVar (g : Topo) (tbl : String → Option (Nat → K)) (active : List Nat) (crow : Nat)
    (model : String) (nv : Nat → K) (var : String) : Option (List (MEntry K)) :=
  match tbl (derName model var) with
  | none => some []
  | some ndm =>
    if active.isEmpty then some []
    else (g.eqIndex (g.eqOfVar var)).map fun eqv =>
      active.map fun c => (crow, g.num eqv c, nv c * ndm c)

/-- The derivative with respect to the circuit node, `ContactEquation.cc` 667-689. -/
def circuitNodeSelf (tbl : String → Option (Nat → K)) (active : List Nat) (crow : Nat)
    (cnode model : String) (nv : Nat → K) : List (MEntry K) :=
  match tbl (derName model cnode) with
  | some dc => active.map fun c => (crow, crow, nv c * dc c)
  | none => []

/-- `AssembleNodeEquationOnCircuit`, `ContactEquation.cc` 572-690. -/
def circuitNodeAssemble (g : Topo) (T : Tables K) (circ : String → Option (Option Nat))
    (active : List Nat) (cnode model : String) (w : What) :
    Option (List (MEntry K) × List (VEntry K)) :=
  match circ cnode with
  | none => none
  | some none => some ([], [])
  | some (some crow) => do
    let nv ← T.node g.nodeVolume
    let v ← if w.doRhs then
        (T.node model).map fun nm => active.map fun c => (crow, nv c * nm c)
      else some []
    let m ← if w.doMat then collect g.vars (circuitNodeVar g T.node active crow model nv)
      else some []
    let mc := if w.doMat then circuitNodeSelf T.node active crow cnode model nv else []
    return (m ++ mc, v)

/-- The model names of a `contact_equation` command. -/
structure ContactSpec where
  name : String
  cnode : String
  nodeModel : String
  edgeModel : String
  edgeVolumeModel : String
  elementModel : String
  volumeNode0Model : String
  volumeNode1Model : String
  nodeCurrent : String
  edgeCurrent : String
  elementCurrent : String
  nodeCharge : String
  edgeCharge : String
  elementCharge : String

/-- `AssembleElementEdgeEquation`, `ContactEquation.cc` 1381-1393. -/
def contactElementAssemble (g : Topo) (T : Tables K) (circ : String → Option (Option Nat))
    (active : List Nat) (name cnode model couple : String) (n0s n1s : K) (w : What) :
    Option (List (MEntry K) × List (VEntry K)) :=
  if g.dim = 2 then contactSiteAssemble g (triShape g) T.tri circ active name cnode model couple n0s n1s w
  else if g.dim = 3 then
    contactSiteAssemble g (tetShape g) T.tet circ active name cnode model couple n0s n1s w
  else some ([], [])

/-- `AssembleElementEdgeEquationOnCircuit`, `ContactEquation.cc` 2127-2139. -/
def circuitElementAssemble [DecidableEq K] (g : Topo) (T : Tables K) (circ : String → Option (Option Nat))
    (active : List Nat) (cnode model couple : String) (n0s n1s : K) (w : What) :
    Option (List (MEntry K) × List (VEntry K)) :=
  if g.dim = 2 then circuitSiteAssemble g (triShape g) true T.tri circ active cnode model couple n0s n1s w
  else if g.dim = 3 then
    circuitSiteAssemble g (tetShape g) false T.tet circ active cnode model couple n0s n1s w
  else some ([], [])

/-- The interior part of `ExprContactEquation::DerivedAssemble`, DC mode: `ExprContactEquation.cc` 74-124. -/
def contactInterior (g : Topo) (T : Tables K) (circ : String → Option (Option Nat)) (active : List Nat)
    (e : ContactSpec) (w : What) : Option (List (MEntry K) × List (VEntry K)) :=
  let edge (model couple : String) (a b : K) :=
    contactSiteAssemble g (edgeShape g) T.edge circ active e.name e.cnode model couple a b w
  let elem (model couple : String) (a b : K) :=
    contactElementAssemble g T circ active e.name e.cnode model couple a b w
  andThen (whenA (e.nodeModel ≠ "")
      (contactNodeAssemble g T circ active e.name e.cnode e.nodeModel w))
  (andThen (whenA (e.edgeModel ≠ "") (edge e.edgeModel g.edgeCouple 1 (-1)))
  (andThen (whenA (e.edgeVolumeModel ≠ "")
      (if g.edgeNode0Volume = g.edgeNode1Volume then edge e.edgeVolumeModel g.edgeNode0Volume 1 1
       else andThen (edge e.edgeVolumeModel g.edgeNode0Volume 1 0)
         (edge e.edgeVolumeModel g.edgeNode1Volume 0 1)))
  (andThen (whenA (e.elementModel ≠ "") (elem e.elementModel g.elementEdgeCouple 1 (-1)))
    (whenA (e.volumeNode0Model ≠ "" || e.volumeNode1Model ≠ "")
      (if g.elementNode0Volume = g.elementNode1Volume ∧ e.volumeNode0Model = e.volumeNode1Model then
        elem e.volumeNode0Model g.elementNode0Volume 1 1
       else andThen (elem e.volumeNode0Model g.elementNode0Volume 1 0)
         (elem e.volumeNode1Model g.elementNode1Volume 0 1))))))

/-- The circuit part of `ExprContactEquation::DerivedAssemble`: currents in DC mode (126-144), charges in TIME
mode (163-182). -/
def contactCircuit [DecidableEq K] (g : Topo) (T : Tables K) (circ : String → Option (Option Nat))
    (active : List Nat) (cnode nodeM edgeM elemM : String) (w : What) :
    Option (List (MEntry K) × List (VEntry K)) :=
  whenA (cnode ≠ "")
    (andThen (whenA (nodeM ≠ "") (circuitNodeAssemble g T circ active cnode nodeM w))
    (andThen (whenA (edgeM ≠ "")
        (circuitSiteAssemble g (edgeShape g) true T.edge circ active cnode edgeM g.edgeCouple 1 (-1) w))
      (whenA (elemM ≠ "")
        (circuitElementAssemble g T circ active cnode elemM g.elementEdgeCouple 1 (-1) w))))

/-- `ExprContactEquation::DerivedAssemble` for `w ≠ PERMUTATIONSONLY`, `ExprContactEquation.cc` 54-184. -/
def contactAssemble [DecidableEq K] (g : Topo) (T : Tables K) (circ : String → Option (Option Nat))
    (active : List Nat) (e : ContactSpec) (w : What) (t : TimeMode) :
    Option (List (MEntry K) × List (VEntry K)) :=
  match t with
  | .dc => andThen (contactInterior g T circ active e w)
      (contactCircuit g T circ active e.cnode e.nodeCurrent e.edgeCurrent e.elementCurrent w)
  | .time => contactCircuit g T circ active e.cnode e.nodeCharge e.edgeCharge e.elementCharge w

/-- The element part of `calcCurrent`/`calcCharge`: `integrateElementEdgeModelOverNodes`,
`ContactEquation.cc` 409-426. -/
def integrateElements [DecidableEq K] (g : Topo) (T : Tables K) (active : List Nat)
    (model couple : String) (n0s n1s : K) : Option K :=
  if g.dim = 2 then integrateSites (triShape g) T.tri active model couple n0s n1s
  else if g.dim = 3 then integrateSites (tetShape g) T.tet active model couple n0s n1s
  else some 0

/-- `calcCurrent`, `calcCharge`: `ExprContactEquation.cc` 187-206. -/
def contactTotal [DecidableEq K] (g : Topo) (T : Tables K) (active : List Nat)
    (nodeM edgeM elemM : String) : Option K := do
  let a ← integrateNodes g T.node active nodeM
  let b ← integrateSites (edgeShape g) T.edge active edgeM g.edgeCouple (1 : K) (-1)
  let c ← integrateElements g T active elemM g.elementEdgeCouple (1 : K) (-1)
  return a + b + c

end
end Verif.Assembly
