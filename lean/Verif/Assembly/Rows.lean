import Verif.Assembly.Examples
import Verif.Assembly.Residual2

/-!
# The rows of contacts and interfaces in the linear system (C25, C38), end to end

`Load.lean` says what the row operator does for a given permutation vector; here the vector is the one which the
contact and interface equations of the device produce in the `PERMUTATIONSONLY` pass (`Newton.cc` 130-148, 653).
-/

namespace Verif.Assembly

/-- A contact equation (with a node model) as the pass sees it: region, equation, active nodes. -/
structure ContactSite where
  g : Topo
  eq : Nat
  active : List Nat

/-- An interface equation: the two regions, its type, the equations and the active pairs of nodes. -/
structure IfaceSite where
  g0 : Topo
  g1 : Topo
  type : IfaceType
  eq0 : Nat
  eq1 : Nat
  pairs : List (Nat × Nat × Nat)

/-- `permvec` after the pass over all contacts and interfaces: `Newton.cc` 130-148, `Device.cc` (contacts first,
then interfaces). -/
def passPerm (cs : List ContactSite) (is : List IfaceSite) : Nat → PermEntry :=
  setPerms identityPerm (passEntries (cs.flatMap fun c => contactPermutation c.g c.eq c.active)
    (is.flatMap fun i => ifacePermutation i.g0 i.g1 i.type i.eq0 i.eq1 i.pairs))

/-! ### Specification -/

/-- The rows governed by contacts. -/
def contactRows (cs : List ContactSite) : List Nat := cs.flatMap fun c => c.active.map fun n => c.g.num c.eq n
/-- The interfaces which move rows. -/
def movers (is : List IfaceSite) : List IfaceSite := is.filter fun i => i.type ≠ .fluxterm
/-- The rows of region 1 at interfaces which move rows. -/
def rows1 (is : List IfaceSite) : List Nat := (movers is).flatMap fun i => i.pairs.map fun q => i.g1.num i.eq1 q.2.2
/-- The rows of region 0. -/
def rows0 (is : List IfaceSite) : List Nat := (movers is).flatMap fun i => i.pairs.map fun q => i.g0.num i.eq0 q.2.1

/-- Every row has at most one owner (C37). -/
structure OneOwner (cs : List ContactSite) (is : List IfaceSite) : Prop where
  nodup1 : (contactRows cs ++ rows1 is).Nodup
  nodup0 : (rows0 is).Nodup
  apart : ∀ r ∈ rows0 is, r ∉ contactRows cs ∧ r ∉ rows1 is

theorem mem_movers {is : List IfaceSite} {i : IfaceSite} (hi : i ∈ is) (ht : i.type ≠ .fluxterm) : i ∈ movers is := by
  simp [movers, hi, ht]

theorem iface_fst (is : List IfaceSite) :
    (is.flatMap fun i => ifacePermutation i.g0 i.g1 i.type i.eq0 i.eq1 i.pairs).map (fun q => q.1) = rows1 is ∧
    (is.flatMap fun i => ifacePermutation i.g0 i.g1 i.type i.eq0 i.eq1 i.pairs).map (fun q => q.2.1) = rows0 is := by
  induction is with
  | nil => simp [rows1, rows0, movers]
  | cons i is ih =>
    obtain ⟨h1, h2⟩ := ih
    cases ht : i.type <;>
      simp_all [rows1, rows0, movers, ifacePermutation, List.filter_cons, Function.comp_def]

/-- **C25, end to end.** For every set of contacts and interfaces in which every row has one owner (C37), after the
permutation pass: at a contact node only what the contact assembled remains; at a pair of nodes joined by a
continuous interface one row is the sum of both bulk equations and the other is the interface equation alone; a
hybrid interface keeps the bulk equation of region 1 as well; and every other row - in particular those of flux
term interfaces - is its own bulk equation plus what is assembled there directly. -/
theorem system_rows {K : Type} [CommRing K] (cs : List ContactSite) (is : List IfaceSite) (h : OneOwner cs is)
    (N : Nat) (hN0 : ∀ r ∈ rows0 is, r < N) (hN1 : ∀ r ∈ rows1 is, r < N) (direct bulk : Nat → K) :
    (∀ c ∈ cs, ∀ n ∈ c.active,
      deviceRow (passPerm cs is) N direct bulk (c.g.num c.eq n) = direct (c.g.num c.eq n)) ∧
    (∀ i ∈ is, ∀ q ∈ i.pairs,
      (i.type = .continuous →
        deviceRow (passPerm cs is) N direct bulk (i.g0.num i.eq0 q.2.1) =
          direct (i.g0.num i.eq0 q.2.1) + (bulk (i.g0.num i.eq0 q.2.1) + bulk (i.g1.num i.eq1 q.2.2)) ∧
        deviceRow (passPerm cs is) N direct bulk (i.g1.num i.eq1 q.2.2) = direct (i.g1.num i.eq1 q.2.2)) ∧
      (i.type = .hybrid →
        deviceRow (passPerm cs is) N direct bulk (i.g0.num i.eq0 q.2.1) =
          direct (i.g0.num i.eq0 q.2.1) + (bulk (i.g0.num i.eq0 q.2.1) + bulk (i.g1.num i.eq1 q.2.2)) ∧
        deviceRow (passPerm cs is) N direct bulk (i.g1.num i.eq1 q.2.2) =
          direct (i.g1.num i.eq1 q.2.2) + bulk (i.g1.num i.eq1 q.2.2))) ∧
    (∀ r, r < N → r ∉ contactRows cs → r ∉ rows0 is → r ∉ rows1 is →
      deviceRow (passPerm cs is) N direct bulk r = direct r + bulk r) := by
  have hC : (cs.flatMap fun c => contactPermutation c.g c.eq c.active) = contactRows cs := rfl
  obtain ⟨hf, hs⟩ := iface_fst is
  have hspec := pass_spec (contactRows cs)
    (is.flatMap fun i => ifacePermutation i.g0 i.g1 i.type i.eq0 i.eq1 i.pairs)
    (by rw [hf]; exact h.nodup1) (by rw [hs]; exact h.nodup0) (by
      intro q hq
      have : q.2.1 ∈ rows0 is := by rw [← hs]; exact List.mem_map.2 ⟨q, hq, rfl⟩
      rw [hf]; exact h.apart _ this)
  dsimp only at hspec
  rw [hf] at hspec
  obtain ⟨s1, s2, s3⟩ := hspec
  have key : passPerm cs is = setPerms identityPerm (passEntries (contactRows cs)
    (is.flatMap fun i => ifacePermutation i.g0 i.g1 i.type i.eq0 i.eq1 i.pairs)) := by rw [passPerm, hC]
  rw [key]
  refine ⟨?_, ?_, ?_⟩
  · intro c hc n hn
    have hm : c.g.num c.eq n ∈ contactRows cs := List.mem_flatMap.2 ⟨c, hc, List.mem_map.2 ⟨n, hn, rfl⟩⟩
    exact contact_row _ _ _ _ _ (s1 _ hm).1 (s1 _ hm).2
  · intro i hi q hq
    refine ⟨fun ht => ?_, fun ht => ?_⟩
    · have hm : (i.g1.num i.eq1 q.2.2, i.g0.num i.eq0 q.2.1, false) ∈
          is.flatMap fun i => ifacePermutation i.g0 i.g1 i.type i.eq0 i.eq1 i.pairs :=
        List.mem_flatMap.2 ⟨i, hi, by rw [ht]; exact List.mem_map.2 ⟨q, hq, rfl⟩⟩
      obtain ⟨p0, p1, hne, o0, o1⟩ := s2 _ hm
      have hmv := mem_movers hi (by rw [ht]; decide)
      refine continuous_rows _ _ _ _ _ _ hne (hN0 _ ?_) (hN1 _ ?_) p0 p1 o0 o1
      · exact List.mem_flatMap.2 ⟨i, hmv, List.mem_map.2 ⟨q, hq, rfl⟩⟩
      · exact List.mem_flatMap.2 ⟨i, hmv, List.mem_map.2 ⟨q, hq, rfl⟩⟩
    · have hm : (i.g1.num i.eq1 q.2.2, i.g0.num i.eq0 q.2.1, true) ∈
          is.flatMap fun i => ifacePermutation i.g0 i.g1 i.type i.eq0 i.eq1 i.pairs :=
        List.mem_flatMap.2 ⟨i, hi, by rw [ht]; exact List.mem_map.2 ⟨q, hq, rfl⟩⟩
      obtain ⟨p0, p1, hne, o0, o1⟩ := s2 _ hm
      have hmv := mem_movers hi (by rw [ht]; decide)
      refine hybrid_rows _ _ _ _ _ _ hne (hN0 _ ?_) (hN1 _ ?_) p0 p1 o0 o1
      · exact List.mem_flatMap.2 ⟨i, hmv, List.mem_map.2 ⟨q, hq, rfl⟩⟩
      · exact List.mem_flatMap.2 ⟨i, hmv, List.mem_map.2 ⟨q, hq, rfl⟩⟩
  · intro r hr h1 h2 h3
    rw [deviceRow, permRow_single _ N bulk r [r] (by simp) (by simpa using hr)]
    · simp
    · intro o _
      simp only [permCoef, List.mem_singleton]
      by_cases ho : o = r
      · subst ho
        rw [s3 o h1 h3]; simp
      · by_cases hc : o ∈ contactRows cs
        · rw [(s1 o hc).1]; simp [ho]
        · by_cases h4 : o ∈ rows1 is
          · rw [← hf] at h4
            obtain ⟨q, hq, rfl⟩ := List.mem_map.1 h4
            obtain ⟨-, p1, -⟩ := s2 q hq
            rw [p1]
            have : q.2.1 ≠ r := by
              rintro rfl
              exact h2 (by rw [← hs]; exact List.mem_map.2 ⟨q, hq, rfl⟩)
            simp [this, ho]
          · rw [s3 o hc h4]; simp [ho]

section
variable {K : Type} [CommRing K] [DecidableEq K]

/-- **C38/C40, a whole contact equation.** In the static load a contact equation puts the finite volume residual of
its models into the rows of its active nodes, the reported contact *current* into the row of its circuit node, and
nothing anywhere else; in the time dependent load only the reported contact *charge* into the row of the circuit
node. -/
theorem contact_loads {g : Topo} {T : Tables K} {circ : String → Option (Option Nat)} {active : List Nat}
    {e : ContactSpec} {m : List (MEntry K)} {v : List (VEntry K)} {eq crow : Nat} {t : TimeMode}
    (hg : GoodMesh g) (hl : active.Nodup) (heq : g.eqIndex e.name = some eq)
    (hcn : e.cnode ≠ "") (hrow : circ e.cnode = some (some crow)) (hfar : ∀ n ∈ active, g.num eq n ≠ crow)
    (h : contactAssemble g T circ active e .matrixAndRhs t = some (m, v)) :
    match t with
    | .dc => ∃ I, contactTotal g T active e.nodeCurrent e.edgeCurrent e.elementCurrent = some I ∧
        rowSum v crow = I ∧ (∀ n ∈ active, rowSum v (g.num eq n) = bulkResidual g T e.interior .dc n) ∧
        ∀ r, r ≠ crow → (∀ n ∈ active, r ≠ g.num eq n) → rowSum v r = 0
    | .time => ∃ Q, contactTotal g T active e.nodeCharge e.edgeCharge e.elementCharge = some Q ∧
        rowSum v crow = Q ∧ ∀ r, r ≠ crow → rowSum v r = 0 := by
  cases t with
  | dc =>
    simp only [contactAssemble] at h
    obtain ⟨m1, v1, m2, v2, h1, h2, rfl, rfl⟩ := andThen_some h
    obtain ⟨r1, r2⟩ := contact_residual (w := .matrixAndRhs) rfl hg hl heq h1
    obtain ⟨I, hI, hv⟩ := circuit_row_is_reported_current hcn hrow h2
    have zero : ∀ r, (∀ n ∈ active, r ≠ g.num eq n) → rowSum v1 r = 0 := by
      intro r hr
      have : ∀ x ∈ v1, x.1 ≠ r := fun x hx hxr => by
        obtain ⟨n, hn, hxn⟩ := r2 x hx
        exact hr n hn (by rw [← hxn, hxr])
      clear h h1 h2 r1 r2
      induction v1 with
      | nil => simp
      | cons a as ih =>
        rw [rowSum_cons, if_neg (this a (by simp)), zero_add]
        exact ih fun x hx => this x (by simp [hx])
    refine ⟨I, hI, ?_, ?_, ?_⟩
    · rw [rowSum_append, zero crow fun n hn => (hfar n hn).symm, hv, if_pos rfl, zero_add]
    · intro n hn
      rw [rowSum_append, r1 n hn, hv, if_neg (hfar n hn).symm, add_zero]
    · intro r hr1 hr2
      rw [rowSum_append, zero r hr2, hv, if_neg (Ne.symm hr1), add_zero]
  | time =>
    simp only [contactAssemble] at h
    obtain ⟨I, hI, hv⟩ := circuit_row_is_reported_current hcn hrow h
    exact ⟨I, hI, by rw [hv, if_pos rfl], fun r hr => by rw [hv, if_neg (Ne.symm hr)]⟩

end

/-! ### Examples -/

/-- Two regions of three nodes, a contact at node 0 of region 0, a continuous interface between node 2 of region 0
and node 0 of region 1, for one equation each. -/
example : ∃ (g0 g1 : Topo), OneOwner [⟨g0, 0, [0]⟩] [⟨g0, g1, .continuous, 0, 0, [(0, 2, 0)]⟩] ∧
    g0.num 0 0 = 0 ∧ g0.num 0 2 = 2 ∧ g1.num 0 0 = 3 := by
  refine ⟨exG, { exG with base := 3 }, ⟨by decide, by decide, by decide⟩, rfl, rfl, rfl⟩

end Verif.Assembly
