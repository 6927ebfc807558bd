import Verif.Assembly.CircuitRow

/-!
# Interface equations (`src/Equation/InterfaceEquation.cc`, `src/AutoEquation/InterfaceExprEquation.cc`)
and who governs a node
-/

namespace Verif.Assembly

/-- An interface: name, the two regions, their nodes (paired by position) and, for each interface equation, the
names of the equation in region 0 and region 1 (`src/Geometry/Interface.hh`). -/
structure IfaceInfo where
  name : String
  region0 : String
  region1 : String
  nodes0 : List Nat
  nodes1 : List Nat
  eqs : List (String × String)
deriving DecidableEq, Repr

/-- The nodes of an interface that lie in `region`. -/
def IfaceInfo.at (o : IfaceInfo) (region : String) (n : Nat) : Bool :=
  (decide (o.region0 = region) && o.nodes0.contains n) || (decide (o.region1 = region) && o.nodes1.contains n)

/-- `RemoveContactNodesFromList`, `InterfaceEquation.cc` 45-100: does some contact of the region at this node
have an equation with this name. -/
def contactOwns (contacts : List ContactInfo) (region eqname : String) (n : Nat) : Bool :=
  (contactsAt contacts region n).any fun c => c.eqs.contains eqname

/-- `RemoveInterfaceNodesFromList`, `InterfaceEquation.cc` 105-168: does another interface at this node have an
equation with this name in the region.  Simplification: an interface is listed at a coordinate for a region
only through its nodes in that region. -/
def ifaceOwns (ifaces : List IfaceInfo) (self region eqname : String) (n : Nat) : Bool :=
  ifaces.any fun o =>
    decide (o.name ≠ self) && o.at region n &&
      (if o.region0 = region then o.eqs.any fun e => decide (e.1 = eqname)
       else if o.region1 = region then o.eqs.any fun e => decide (e.2 = eqname)
       else false)

/-- `GetActiveNodes0`, `GetActiveNodes1`, `GetActiveNodesFromList`: `InterfaceEquation.cc` 174-222. -/
def ifaceActive (contacts : List ContactInfo) (ifaces : List IfaceInfo) (self region eqname : String)
    (nodes : List Nat) : List Nat :=
  (nodes.filter fun n => !contactOwns contacts region eqname n).filter fun n =>
    !ifaceOwns ifaces self region eqname n

/-- `InterfaceExprEquationEnum::EquationType`, `src/AutoEquation/InterfaceExprEquation.hh`. -/
inductive IfaceType | continuous | fluxterm | hybrid
deriving DecidableEq, Repr

/-- The pairs of nodes the loops visit, with the index of the pair: `for (i …)` with `continue` unless both nodes
are active, `InterfaceEquation.cc` 330-338, 525-534, 687-696. -/
def ifacePairs (nodes0 nodes1 act0 act1 : List Nat) : List (Nat × Nat × Nat) :=
  (((nodes0.zip nodes1).zipIdx).filter fun (p, _) => act0.contains p.1 && act1.contains p.2).map
    fun (p, i) => (i, p.1, p.2)

section
variable {K : Type} [CommRing K]

/-- Rows an interface equation is assembled into for a pair of nodes, with the factor: type 1 lines 344-358,
type 2 lines 536-552, type 3 lines 698-722 (and the same in the matrix loops). -/
def ifaceRows (g0 g1 : Topo) (t : IfaceType) (eq0 eq1 : Nat) (sa0 sa1 : Nat → K) (n0 n1 : Nat) :
    List (Nat × K) :=
  match t with
  | .continuous => [(g1.num eq1 n1, 1)]
  | .fluxterm => [(g0.num eq0 n0, sa0 n0), (g1.num eq1 n1, - sa1 n1)]
  | .hybrid => [(g1.num eq1 n1, - sa1 n1)]

/-- Surface area models: needed for types 2 and 3 only (`InterfaceEquation.cc` 494-499, 661-666). -/
def ifaceAreas (t : IfaceType) (s0 s1 : Option (Nat → K)) : Option ((Nat → K) × (Nat → K)) :=
  match t with
  | .continuous => some (fun _ => 0, fun _ => 0)
  | _ => match s0, s1 with
    | some a, some b => some (a, b)
    | _, _ => none

/-- One derivative model: `InterfaceEquation.cc` 369-430, 553-620, 725-815.  `reg` and `pick` choose region and
node of the column. -/
def ifaceVar (g0 g1 reg : Topo) (pick : Nat × Nat × Nat → Nat) (t : IfaceType) (eq0 eq1 : Nat)
    (sa0 sa1 : Nat → K) (pairs : List (Nat × Nat × Nat)) (itbl : String → Option (Nat → K))
    (model suffix var : String) : Option (List (MEntry K)) :=
  match itbl (derName model var ++ suffix) with
  | none => some []
  | some f => (reg.eqIndex (reg.eqOfVar var)).map fun eqv =>
      pairs.flatMap fun q => (ifaceRows g0 g1 t eq0 eq1 sa0 sa1 q.2.1 q.2.2).map fun (row, a) =>
        (row, reg.num eqv (pick q), f q.1 * a)

/-- `NodeVolumeType1Assemble`, `NodeVolumeType2Assemble`, `NodeVolumeType3Assemble` without the permutations:
`InterfaceEquation.cc` 255-815.  `itbl` are the interface node models (indexed by pair). -/
def ifaceAssemble (g0 g1 : Topo) (t : IfaceType) (itbl : String → Option (Nat → K))
    (s0 s1 : Option (Nat → K)) (pairs : List (Nat × Nat × Nat)) (name0 name1 model : String) (w : What) :
    Option (List (MEntry K) × List (VEntry K)) := do
  let eq0 ← g0.eqIndex name0
  let eq1 ← g1.eqIndex name1
  let f ← itbl model
  let sa ← ifaceAreas t s0 s1
  let v := if w.doRhs then
      pairs.flatMap fun q => (ifaceRows g0 g1 t eq0 eq1 sa.1 sa.2 q.2.1 q.2.2).map fun (row, a) =>
        (row, f q.1 * a)
    else []
  let m0 ← if w.doMat then
      collect g0.vars (ifaceVar g0 g1 g0 (fun q => q.2.1) t eq0 eq1 sa.1 sa.2 pairs itbl model "@r0")
    else some []
  let m1 ← if w.doMat then
      collect g1.vars (ifaceVar g0 g1 g1 (fun q => q.2.2) t eq0 eq1 sa.1 sa.2 pairs itbl model "@r1")
    else some []
  return (m0 ++ m1, v)

/-- The permutation entries: row of region 1 ↦ (row of region 0, keep a copy); `InterfaceEquation.cc` 347-350,
438-441 (none for type 2), 704-708. -/
def ifacePermutation (g0 g1 : Topo) (t : IfaceType) (eq0 eq1 : Nat) (pairs : List (Nat × Nat × Nat)) :
    List (Nat × Nat × Bool) :=
  match t with
  | .continuous => pairs.map fun q => (g1.num eq1 q.2.2, g0.num eq0 q.2.1, false)
  | .fluxterm => []
  | .hybrid => pairs.map fun q => (g1.num eq1 q.2.2, g0.num eq0 q.2.1, true)

/-- What a pair of nodes contributes to row `r`. -/
def ifaceWeight (g0 g1 : Topo) (t : IfaceType) (eq0 eq1 : Nat) (sa0 sa1 : Nat → K) (r n0 n1 : Nat) : K :=
  ((ifaceRows g0 g1 t eq0 eq1 sa0 sa1 n0 n1).map fun (row, a) => if row = r then a else 0).sum

theorem rowSum_rows (l : List (Nat × K)) (x : K) (r : Nat) :
    rowSum (l.map fun (row, a) => (row, x * a)) r =
      (l.map fun (row, a) => if row = r then a else 0).sum * x := by
  induction l with
  | nil => simp
  | cons a as ih =>
    simp only [List.map_cons, rowSum_cons, ih, List.sum_cons]
    split <;> ring

theorem matVec_rows (l : List (Nat × K)) (x : K) (col : Nat) (d : Nat → K) (r : Nat) :
    matVec (l.map fun (row, a) => (row, col, x * a)) d r =
      (l.map fun (row, a) => if row = r then a else 0).sum * (x * d col) := by
  induction l with
  | nil => simp
  | cons a as ih =>
    simp only [List.map_cons, matVec_cons, ih, List.sum_cons]
    split <;> ring

/-- The chain rule for an interface model at one pair of nodes. -/
def ifaceDeriv (g0 g1 : Topo) (itbl : String → Option (Nat → K)) (d : Nat → K) (model : String)
    (q : Nat × Nat × Nat) : K :=
  (g0.vars.map fun var => val (itbl (derName model var ++ "@r0")) q.1 * d (g0.col var q.2.1)).sum +
  (g1.vars.map fun var => val (itbl (derName model var ++ "@r1")) q.1 * d (g1.col var q.2.2)).sum

theorem matVec_ifaceVars {g0 g1 reg : Topo} {pick : Nat × Nat × Nat → Nat} {t : IfaceType} {eq0 eq1 : Nat}
    {sa0 sa1 : Nat → K} {pairs : List (Nat × Nat × Nat)} {itbl : String → Option (Nat → K)}
    {model suffix : String} {m : List (MEntry K)}
    (h : collect reg.vars (ifaceVar g0 g1 reg pick t eq0 eq1 sa0 sa1 pairs itbl model suffix) = some m)
    (d : Nat → K) (r : Nat) :
    matVec m d r = (pairs.map fun q => ifaceWeight g0 g1 t eq0 eq1 sa0 sa1 r q.2.1 q.2.2 *
      (reg.vars.map fun var => val (itbl (derName model var ++ suffix)) q.1 *
        d (reg.col var (pick q))).sum).sum := by
  obtain ⟨hs, h2⟩ := collect_some h
  rw [h2, matVec_flatMap]
  have key : ∀ var ∈ reg.vars, matVec ((ifaceVar g0 g1 reg pick t eq0 eq1 sa0 sa1 pairs itbl model suffix
      var).getD []) d r = (pairs.map fun q => ifaceWeight g0 g1 t eq0 eq1 sa0 sa1 r q.2.1 q.2.2 *
        (val (itbl (derName model var ++ suffix)) q.1 * d (reg.col var (pick q)))).sum := by
    intro var hvar
    obtain ⟨b, hb⟩ := hs var hvar
    rw [hb]
    unfold ifaceVar at hb
    cases hx : itbl (derName model var ++ suffix) with
    | none =>
      simp only [hx, Option.some.injEq] at hb
      subst hb; simp [val]
    | some f =>
      cases hev : reg.eqIndex (reg.eqOfVar var) with
      | none => simp [hx, hev] at hb
      | some eqv =>
        simp only [hx, hev, Option.map_some, Option.some.injEq] at hb
        rw [Option.getD_some, ← hb, matVec_flatMap]
        congr 1
        refine List.map_congr_left fun q _ => ?_
        rw [matVec_rows]
        simp only [val, Topo.col, hev, Option.getD_some, ifaceWeight]
  rw [List.map_congr_left key, list_sum_comm]
  congr 1
  refine List.map_congr_left fun q _ => ?_
  rw [list_sum_mul_left]

theorem ifaceAssemble_spec {g0 g1 : Topo} {t : IfaceType} {itbl : String → Option (Nat → K)}
    {s0 s1 : Option (Nat → K)} {pairs : List (Nat × Nat × Nat)} {name0 name1 model : String}
    {m : List (MEntry K)} {v : List (VEntry K)}
    (h : ifaceAssemble g0 g1 t itbl s0 s1 pairs name0 name1 model .matrixAndRhs = some (m, v)) :
    ∃ eq0 eq1 sa, g0.eqIndex name0 = some eq0 ∧ g1.eqIndex name1 = some eq1 ∧
      ifaceAreas t s0 s1 = some sa ∧
      (∀ r, rowSum v r = (pairs.map fun q => ifaceWeight g0 g1 t eq0 eq1 sa.1 sa.2 r q.2.1 q.2.2 *
        val (itbl model) q.1).sum) ∧
      (∀ d r, matVec m d r = (pairs.map fun q => ifaceWeight g0 g1 t eq0 eq1 sa.1 sa.2 r q.2.1 q.2.2 *
        ifaceDeriv g0 g1 itbl d model q).sum) := by
  unfold ifaceAssemble at h
  simp only [What.doRhs, What.doMat, if_true, Option.bind_eq_bind, Option.bind_eq_some_iff,
    Option.pure_def, Option.some.injEq, Prod.mk.injEq] at h
  obtain ⟨eq0, h0, eq1, h1, f, hf, sa, hsa, m0, hm0, m1, hm1, rfl, rfl⟩ := h
  refine ⟨eq0, eq1, sa, h0, h1, hsa, ?_, ?_⟩
  · intro r
    rw [rowSum_flatMap]
    congr 1
    refine List.map_congr_left fun q _ => ?_
    rw [rowSum_rows, hf]; rfl
  · intro d r
    rw [matVec_append, matVec_ifaceVars hm0, matVec_ifaceVars hm1, ← List.sum_map_add]
    congr 1
    refine List.map_congr_left fun q _ => ?_
    rw [ifaceDeriv]; ring

/-- **C26, interfaces**: a flux-term interface equation moves quantity from one region to the other: with equal
surface areas on both sides the contributions to the two rows of a pair of nodes are opposite, for the residual
and for every column of the matrix. -/
theorem fluxterm_conserves {g0 g1 : Topo} {itbl : String → Option (Nat → K)}
    {s0 s1 : Option (Nat → K)} {pairs : List (Nat × Nat × Nat)} {name0 name1 model : String}
    {m : List (MEntry K)} {v : List (VEntry K)} {eq0 eq1 : Nat} (rows : List Nat) (hnd : rows.Nodup)
    (h : ifaceAssemble g0 g1 .fluxterm itbl s0 s1 pairs name0 name1 model .matrixAndRhs = some (m, v))
    (he0 : g0.eqIndex name0 = some eq0) (he1 : g1.eqIndex name1 = some eq1)
    (hrows : ∀ q ∈ pairs, g0.num eq0 q.2.1 ∈ rows ∧ g1.num eq1 q.2.2 ∈ rows)
    (harea : ∀ q ∈ pairs, val s0 q.2.1 = val s1 q.2.2) :
    (rows.map fun r => rowSum v r).sum = 0 ∧ ∀ c, (rows.map fun r => cell m r c).sum = 0 := by
  obtain ⟨eq0', eq1', sa, h0', h1', hsa, hv, hm⟩ := ifaceAssemble_spec h
  rw [he0] at h0'; cases h0'
  rw [he1] at h1'; cases h1'
  have hsa' : s0 = some sa.1 ∧ s1 = some sa.2 := by
    cases s0 <;> cases s1 <;> simp [ifaceAreas] at hsa
    subst hsa; exact ⟨rfl, rfl⟩
  have hw : ∀ q ∈ pairs, (rows.map fun r => ifaceWeight g0 g1 .fluxterm eq0 eq1 sa.1 sa.2 r q.2.1 q.2.2).sum
      = 0 := by
    intro q hq
    have e : ∀ x (a : K), x ∈ rows → (rows.map fun r => if x = r then a else 0).sum = a := by
      intro x a hx
      rw [sum_ite_mem x a rows hnd, if_pos hx]
    simp only [ifaceWeight, ifaceRows, List.map_cons, List.map_nil, List.sum_cons, List.sum_nil, add_zero]
    rw [List.sum_map_add, e _ _ (hrows q hq).1, e _ _ (hrows q hq).2]
    have := harea q hq
    rw [hsa'.1, hsa'.2] at this
    simp only [val] at this
    rw [this]; ring
  have tot : ∀ F : Nat × Nat × Nat → K, (rows.map fun r => (pairs.map fun q =>
      ifaceWeight g0 g1 .fluxterm eq0 eq1 sa.1 sa.2 r q.2.1 q.2.2 * F q).sum).sum = 0 := by
    intro F
    rw [list_sum_comm]
    apply List.sum_eq_zero
    intro x hx
    obtain ⟨q, hq, rfl⟩ := List.mem_map.1 hx
    have : (rows.map fun r => ifaceWeight g0 g1 .fluxterm eq0 eq1 sa.1 sa.2 r q.2.1 q.2.2 * F q) =
        rows.map fun r => F q * ifaceWeight g0 g1 .fluxterm eq0 eq1 sa.1 sa.2 r q.2.1 q.2.2 :=
      List.map_congr_left fun r _ => mul_comm _ _
    rw [this, list_sum_mul_left, hw q hq, mul_zero]
  refine ⟨?_, fun c => ?_⟩
  · simp only [hv]; exact tot _
  · simp only [cell_eq_matVec, hm]; exact tot _

end

/-- The derivative models of an interface model are right. -/
def IfaceExact (g0 g1 : Topo) (itbl : ℝ → String → Option (Nat → ℝ)) (t0 : ℝ) (d : Nat → ℝ)
    (model : String) (pairs : List (Nat × Nat × Nat)) : Prop :=
  ∀ q ∈ pairs, HasDerivAt (fun t => val (itbl t model) q.1) (ifaceDeriv g0 g1 (itbl t0) d model q) t0

/-- **C39, interfaces**: for each type of interface equation. -/
theorem iface_jacobian (g0 g1 : Topo) (t : IfaceType) (itbl : ℝ → String → Option (Nat → ℝ))
    (s0 s1 : Option (Nat → ℝ)) (pairs : List (Nat × Nat × Nat)) (name0 name1 model : String)
    (t0 : ℝ) (d : Nat → ℝ) (hx : IfaceExact g0 g1 itbl t0 d model pairs) :
    IsJacobianAlong (fun τ => ifaceAssemble g0 g1 t (itbl τ) s0 s1 pairs name0 name1 model .matrixAndRhs)
      t0 d := by
  intro out hout r
  obtain ⟨eq0, eq1, sa, h0, h1, hsa, -, hm⟩ := ifaceAssemble_spec (hout t0)
  have hv : ∀ τ, rowSum (out τ).2 r = (pairs.map fun q =>
      ifaceWeight g0 g1 t eq0 eq1 sa.1 sa.2 r q.2.1 q.2.2 * val (itbl τ model) q.1).sum := by
    intro τ
    obtain ⟨eq0', eq1', sa', h0', h1', hsa', hv, -⟩ := ifaceAssemble_spec (hout τ)
    rw [h0] at h0'; cases h0'
    rw [h1] at h1'; cases h1'
    rw [hsa] at hsa'; cases hsa'
    exact hv r
  simp only [hv]
  rw [hm]
  exact hasDerivAt_list_sum _ (fun q τ => _) _ _ fun q hq => (hx q hq).const_mul _

/-! ## Who governs a node (C37) -/

theorem activeLoop_true {c : ContactInfo} {eqname : String} (hdef : c.eqs.contains eqname = true)
    (l : List ContactInfo) (hl : ∀ o ∈ l, o.region = c.region) :
    activeLoop c eqname l = true ↔ l = [] ∨ ∃ o os, l = o :: os ∧ o.name = c.name := by
  cases l with
  | nil => simp [activeLoop]
  | cons o os =>
    have hr := hl o (by simp)
    simp only [activeLoop, hr, if_true, hdef]
    by_cases hn : o.name = c.name
    · simp [hn]
    · simp [hn]

/-- **C37, exact description.** For a contact that defines the equation, a node of it is governed by its contact
equation exactly when it is the first of the contacts of that region at that node, in the order in which the
device keeps them. -/
theorem contact_governs_iff {all : List ContactInfo} {c : ContactInfo} {eqname : String}
    (hc : c ∈ all) (hdef : c.eqs.contains eqname = true) (n : Nat) :
    n ∈ activeNodes all c eqname ↔
      n ∈ c.nodes ∧ ∃ o os, all.filter (fun o => decide (o.region = c.region) && o.nodes.contains n) = o :: os ∧
        o.name = c.name := by
  have hreg : ∀ o ∈ contactsAt all c.region n, o.region = c.region := by
    intro o ho
    have := (List.mem_filter.1 ho).2
    simp only [Bool.and_eq_true, decide_eq_true_eq] at this
    exact this.1
  simp only [activeNodes, List.mem_filter]
  constructor
  · rintro ⟨h1, h2⟩
    refine ⟨h1, ?_⟩
    rcases (activeLoop_true hdef _ hreg).1 h2 with h | h
    · exfalso
      have : c ∈ contactsAt all c.region n := List.mem_filter.2 ⟨hc, by
        simp only [decide_true, Bool.true_and, List.contains_iff_mem]; exact h1⟩
      rw [h] at this
      cases this
    · exact h
  · rintro ⟨h1, h2⟩
    exact ⟨h1, (activeLoop_true hdef _ hreg).2 (Or.inr h2)⟩

/-- **C37, contacts: at most one owner.** -/
theorem contact_owner_unique {all : List ContactInfo} {a b : ContactInfo} {eqname : String} {n : Nat}
    (ha : a ∈ all) (hb : b ∈ all) (hda : a.eqs.contains eqname = true) (hdb : b.eqs.contains eqname = true)
    (hr : a.region = b.region)
    (hna : n ∈ activeNodes all a eqname) (hnb : n ∈ activeNodes all b eqname) : a.name = b.name := by
  obtain ⟨-, o, os, h1, h2⟩ := (contact_governs_iff ha hda n).1 hna
  obtain ⟨-, o', os', h1', h2'⟩ := (contact_governs_iff hb hdb n).1 hnb
  rw [hr] at h1
  rw [h1] at h1'
  injection h1' with e1 _
  rw [← h2, ← h2', e1]

/-- **C37, contacts: an owner exists**, when all contacts of the region at the node define the equation (see
`shared_node_lost` for the case in which one of them does not). -/
theorem contact_owner_exists_partial {all : List ContactInfo} {c : ContactInfo} {eqname : String} {n : Nat}
    (hc : c ∈ all) (hn : n ∈ c.nodes)
    (hall : ∀ o ∈ all, o.region = c.region → n ∈ o.nodes → o.eqs.contains eqname = true) :
    ∃ o ∈ all, o.region = c.region ∧ n ∈ activeNodes all o eqname := by
  have hmem : c ∈ contactsAt all c.region n := List.mem_filter.2 ⟨hc, by
    simp only [decide_true, Bool.true_and, List.contains_iff_mem]; exact hn⟩
  cases h : contactsAt all c.region n with
  | nil => rw [h] at hmem; cases hmem
  | cons o os =>
    have ho : o ∈ contactsAt all c.region n := by rw [h]; simp
    obtain ⟨ho1, ho2⟩ := List.mem_filter.1 ho
    simp only [Bool.and_eq_true, decide_eq_true_eq, List.contains_iff_mem] at ho2
    refine ⟨o, ho1, ho2.1, (contact_governs_iff ho1 (hall o ho1 ho2.1 ho2.2) n).2 ⟨ho2.2, o, os, ?_, rfl⟩⟩
    rw [ho2.1]; exact h

/-- **F27**: a node shared by a contact that defines the equation and one that does not can be governed by
neither: the contact equation is not applied there. -/
theorem shared_node_lost :
    ∃ (all : List ContactInfo) (a b : ContactInfo), a ∈ all ∧ b ∈ all ∧ a.region = b.region ∧
      7 ∈ a.nodes ∧ 7 ∈ b.nodes ∧ a.eqs.contains "E" = true ∧ b.eqs.contains "E" = false ∧
      7 ∉ activeNodes all a "E" := by
  refine ⟨[⟨"b", "r", [7, 8], []⟩, ⟨"a", "r", [6, 7], ["E"]⟩], ⟨"a", "r", [6, 7], ["E"]⟩,
    ⟨"b", "r", [7, 8], []⟩, ?_⟩
  simp [activeNodes, contactsAt, activeLoop]

/-- Not vacuous: two contacts share node 7, the first one listed owns it. -/
example : let a : ContactInfo := ⟨"a", "r", [6, 7], ["E"]⟩
    let b : ContactInfo := ⟨"b", "r", [7, 8], ["E"]⟩
    activeNodes [b, a] a "E" = [6] ∧ activeNodes [b, a] b "E" = [7, 8] := by
  decide

theorem mem_ifaceActive {contacts : List ContactInfo} {ifaces : List IfaceInfo}
    {self region eqname : String} {nodes : List Nat} {n : Nat} :
    n ∈ ifaceActive contacts ifaces self region eqname nodes ↔
      n ∈ nodes ∧ contactOwns contacts region eqname n = false ∧
        ifaceOwns ifaces self region eqname n = false := by
  simp only [ifaceActive, List.mem_filter, Bool.not_eq_true']
  tauto

/-- The interface equations of an interface in a region. -/
def IfaceInfo.defines (o : IfaceInfo) (region eqname : String) : Prop :=
  (o.region0 = region ∧ ∃ e ∈ o.eqs, e.1 = eqname) ∨
    (o.region0 ≠ region ∧ o.region1 = region ∧ ∃ e ∈ o.eqs, e.2 = eqname)

/-- **C37, interfaces yield to contacts**: a node on which an interface equation acts has no contact of its
region with an equation of that name, so that no row is both removed by a contact and moved by an interface. -/
theorem iface_yields_to_contacts {contacts : List ContactInfo} {ifaces : List IfaceInfo}
    {self region eqname : String} {nodes : List Nat} {n : Nat}
    (h : n ∈ ifaceActive contacts ifaces self region eqname nodes) (c : ContactInfo) (hc : c ∈ contacts)
    (hr : c.region = region) (hdef : c.eqs.contains eqname = true) : n ∉ c.nodes := by
  intro hn
  have h2 := (mem_ifaceActive.1 h).2.1
  rw [contactOwns, List.any_eq_false] at h2
  apply h2 c _ hdef
  exact List.mem_filter.2 ⟨hc, by simp [hr, hn]⟩

/-- **C37, interfaces: at most one owner**: no node of a region is governed by two interfaces for one
equation. -/
theorem iface_owner_unique {contacts : List ContactInfo} {ifaces : List IfaceInfo} {a b : IfaceInfo}
    {region eqname : String} {nodes nodes' : List Nat} {n : Nat}
    (hb : b ∈ ifaces) (hbn : b.at region n = true) (hbd : b.defines region eqname)
    (hna : n ∈ ifaceActive contacts ifaces a.name region eqname nodes)
    (_hnb : n ∈ ifaceActive contacts ifaces b.name region eqname nodes') : a.name = b.name := by
  by_contra hne
  have h2 := (mem_ifaceActive.1 hna).2.2
  rw [ifaceOwns, List.any_eq_false] at h2
  have := h2 b hb
  apply this
  simp only [Bool.and_eq_true, decide_eq_true_eq]
  refine ⟨⟨fun h => hne h.symm, hbn⟩, ?_⟩
  rcases hbd with ⟨h1, e, he, hee⟩ | ⟨h0, h1, e, he, hee⟩
  · rw [if_pos h1, List.any_eq_true]
    exact ⟨e, he, by simp [hee]⟩
  · rw [if_neg h0, if_pos h1, List.any_eq_true]
    exact ⟨e, he, by simp [hee]⟩

theorem mem_ifacePairs {nodes0 nodes1 act0 act1 : List Nat} {q : Nat × Nat × Nat}
    (h : q ∈ ifacePairs nodes0 nodes1 act0 act1) :
    q.2.1 ∈ act0 ∧ q.2.2 ∈ act1 ∧ q.2.1 ∈ nodes0 ∧ q.2.2 ∈ nodes1 := by
  simp only [ifacePairs, List.mem_map, List.mem_filter, Bool.and_eq_true, List.contains_iff_mem] at h
  obtain ⟨⟨p, i⟩, ⟨h1, h2, h3⟩, rfl⟩ := h
  have h4 : p ∈ nodes0.zip nodes1 := by
    have := List.mem_zipIdx h1
    rw [this.2.2]
    exact List.getElem_mem _
  exact ⟨h2, h3, (List.of_mem_zip (a := p.1) (b := p.2) h4).1, (List.of_mem_zip (a := p.1) (b := p.2) h4).2⟩

/-- Not vacuous: an interface between regions `r` and `s` with a contact on one of its pairs. -/
example :
    let c : ContactInfo := ⟨"c", "r", [0, 1], ["E"]⟩
    let i : IfaceInfo := ⟨"i", "r", "s", [1, 2, 3], [5, 6, 7], [("E", "E")]⟩
    ifacePairs i.nodes0 i.nodes1 (ifaceActive [c] [i] "i" "r" "E" i.nodes0)
      (ifaceActive [c] [i] "i" "s" "E" i.nodes1) = [(1, 2, 6), (2, 3, 7)] := by
  decide

end Verif.Assembly
