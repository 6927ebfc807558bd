import Verif.Msh.Model

/-!
Specification of C96: what is known of meshes and devices from the history alone: the commands and their answers, newest first.
-/
namespace Verif.Msh.Spec
open Verif
open Verif.Msh (Cmd Ans Kind)

/-- the mesh a command is about -/
def about : Cmd → Option String
  | .finalize m | .line m _ _ _ _ | .region m _ _ _ _ | .contact m _ _ _ | .interface m _ _ | .add2 m _ => some m
  | _ => none

abbrev Hist := List (Cmd × Ans)

/-- the life of the mesh, if there is one of the name: its kind, and the commands about it since it was made, newest first -/
def life : Hist → String → Option (Kind × Hist)
  | [], _ => none
  | (.create k m', .ok) :: h, m => if m' = m then some (k, []) else life h m
  | (.delete m', .ok) :: h, m => if m' = m then none else life h m
  | e :: h, m => if about e.1 = some m then (life h m).map fun x => (x.1, e :: x.2) else life h m

/-- the mesh was finalized -/
def finalized (l : Hist) : Prop := ∃ m, (Cmd.finalize m, Ans.ok) ∈ l

/-- the device, if there is one of the name: whether `create_device` was successful, the mesh it was made from, and the life of that mesh until then -/
def origin : Hist → String → Option (Ans × String × Kind × Hist)
  | [], _ => none
  | (.device m d', a) :: h, d =>
    if d' = d ∧ a ≠ .refused then (life h m).map fun x => (a, m, x) else origin h d
  | (.deleteDevice d', .ok) :: h, d => if d' = d then none else origin h d
  | _ :: h, d => origin h d

open Classical in
/-- what the mesh was told, in the order of the commands -/
noncomputable def lines (l : Hist) : List Mesh.Line := l.reverse.filterMap fun
  | (.line _ tag pos ns ps, .ok) => some ⟨pos, ps, if ns ≤ 0 then ps else ns, tag⟩
  | _ => none
def regions (l : Hist) : List Mesh.RegionDef := l.reverse.filterMap fun
  | (.region _ n mat t1 t2, .ok) => some ⟨n, mat, t1, t2⟩
  | _ => none
def contacts (l : Hist) : List Mesh.ContactDef := l.reverse.filterMap fun
  | (.contact _ n mat t, .ok) => some ⟨n, mat, t⟩
  | _ => none
def interfaces (l : Hist) : List Mesh.InterfaceDef := l.reverse.filterMap fun
  | (.interface _ n t, .ok) => some ⟨n, t⟩
  | _ => none
def told2 (l : Hist) : List Mesh2d.Cmd := l.reverse.filterMap fun
  | (.add2 _ c, .ok) => some c
  | _ => none

/-- how often finalizing has failed -/
def failures (l : Hist) : Nat := (l.filter fun e => match e.1 with | .finalize _ => decide (e.2 = .failed) | _ => false).length

/-- the numbers and names of a command that describes a mesh are good -/
def good : Cmd → Prop
  | .line _ _ _ _ ps => 0 < ps
  | .region _ n mat t1 t2 => n ≠ "" ∧ mat ≠ "" ∧ t1 ≠ "" ∧ t2 ≠ ""
  | .contact _ n mat t => n ≠ "" ∧ mat ≠ "" ∧ t ≠ ""
  | .interface _ n t => n ≠ "" ∧ t ≠ ""
  | .add2 _ (.line d _ ps _) => 0 < ps ∧ d ≠ .other
  | .add2 _ (.region n mat _ _ _ _ _) => n ≠ [] ∧ mat ≠ []
  | .add2 _ (.contact n mat reg _ _ _ _ _) => n ≠ [] ∧ mat ≠ [] ∧ reg ≠ []
  | .add2 _ (.iface n r0 r1 _ _ _ _ _) => n ≠ [] ∧ r0 ≠ [] ∧ r1 ≠ [] ∧ r0 ≠ r1
  | _ => True

/-- the kind of mesh a command describes -/
def describes : Cmd → Option Kind
  | .line .. | .region .. | .contact .. | .interface .. => some .one
  | .add2 .. => some .two
  | _ => none

end Verif.Msh.Spec
