import Verif.Cont.Main
/-!
# A strip with an edge on the contact
-/
namespace Verif.Cont

/-- Four nodes in a row, and the edges of each. -/
def rowEdges : Nat → List Nat
  | 0 => [0]
  | 1 => [0, 1]
  | 2 => [1, 2]
  | 3 => [2]
  | _ => []

theorem row_nodup : ∀ v, (rowEdges v).Nodup := by
  intro v
  match v with
  | 0 => decide
  | 1 => decide
  | 2 => decide
  | 3 => decide
  | _ + 4 => exact List.nodup_nil

/-- A function that fails on edge 2, far from the contact. -/
def fails (i : Nat) : Int × String := if i = 2 then (0, "division by zero") else (10 + i, "")

/-- The contact has one node: only its edge is looked at. -/
theorem one_node : ∃ v, (compute 0 3 (edgeIndexes rowEdges [0]) fails).1 = .inl v ∧ ∀ i < 3, v[i]? = some (if i = 0 then 10 else 0) := by
  have hs := (edge_indexes rowEdges [0]).2
  have hm := (edge_indexes rowEdges [0]).1
  have hd : (edgeIndexes rowEdges [0]).Nodup := by
    rw [edgeIndexes, (List.mergeSort_perm _ _).nodup_iff]; decide
  have m0 : ∀ i, i ∈ edgeIndexes rowEdges [0] ↔ i = 0 := by
    intro i
    rw [hm]
    simp [rowEdges]
  obtain ⟨c1, c2, -⟩ := contact_values 0 3 hs fails
  obtain ⟨v, hv⟩ := c1.2 fun i hi => by
    have := (m0 i).1 ((once 3 hd i).1 hi).2
    subst this; rfl
  refine ⟨v, hv, fun i hi => ?_⟩
  rw [(c2 v hv).2.2 i hi]
  by_cases e : i = 0
  · subst e
    rw [if_pos ((m0 0).2 rfl)]; rfl
  · rw [if_neg (fun h => e ((m0 i).1 h)), if_neg e]

/-- F155: the contact has two nodes that are joined by an edge: the function is called on edge 2, which is not of the contact, and
the model fails. -/
theorem joined_fails : (¬ ∃ v ∈ [0, 1], 2 ∈ rowEdges v) ∧ ∃ s, (compute 0 3 (edgeIndexes rowEdges [0, 1]) fails).1 = .inr s :=
  ⟨by decide, edge_everywhere 0 row_nodup (u := 0) (w := 1) (e := 0) (i := 2) (List.Sublist.refl _) (by decide) (by decide)
    (by omega) (by omega) fails (by decide)⟩

/-- A node model. -/
theorem two_nodes : ∃ v, (compute (0 : Int) 3 (nodeIndexes [1, 0]) fails).1 = .inl v ∧
    ∀ i < 3, v[i]? = some (if i ∈ [1, 0] then (fails i).1 else 0) :=
  node_model 0 3 (by decide) fails (by decide)

end Verif.Cont
