import Verif.Mesh2d.Finalize
import Verif.MeshIO.RoundTrip

/-!
# C66: the device that `create_device` makes of a two-dimensional mesh
-/

namespace Verif.Mesh2d
open Classical Verif.MeshIO
open Verif.Mesh (Res)

variable {m : Mesh2} {xs ys : List ℝ} {L : Loader ℝ}

/-! ### Every edge has one or two triangles -/

theorem nodeAt_fun {n : Text} {k : Nat} {p p' : ℝ × ℝ} (h : NodeAt L n k p) (h' : NodeAt L n k p') : p = p' := by
  obtain ⟨r, i, h1, h2, h3⟩ := h
  obtain ⟨r', i', h1', h2', h3'⟩ := h'
  rw [h1] at h1'; cases h1'
  rw [h2] at h2'; cases h2'
  rw [h3] at h3'
  simp only [Option.some.injEq, Prod.mk.injEq, and_true] at h3'
  exact Prod.ext h3'.1 h3'.2

theorem nodeAt_inj (hm : MeshOK2 m xs ys L) {n : Text} {k k' : Nat} {p : ℝ × ℝ} (h : NodeAt L n k p)
    (h' : NodeAt L n k' p) : k = k' := by
  obtain ⟨r, i, h1, h2, h3⟩ := h
  obtain ⟨r', i', h1', h2', h3'⟩ := h'
  rw [h1] at h1'; cases h1'
  obtain ⟨g1, g2⟩ := List.getElem?_eq_some_iff.1 h3
  obtain ⟨g3, g4⟩ := List.getElem?_eq_some_iff.1 h3'
  have hi : i = i' := (List.Nodup.getElem_inj_iff hm.coords_nodup).1 (g2.trans g4.symm)
  subst hi
  obtain ⟨g1, g2⟩ := List.getElem?_eq_some_iff.1 h2
  obtain ⟨g3, g4⟩ := List.getElem?_eq_some_iff.1 h2'
  exact (List.Nodup.getElem_inj_iff (hm.region n r h1).nodes_nodup).1 (g2.trans g4.symm)

theorem Next.fun_right {xs : List ℝ} (h : xs.Pairwise (· < ·)) {a b b' : ℝ} (h1 : Next xs a b) (h2 : Next xs a b') : b = b' := by
  obtain ⟨i, e1, e2⟩ := h1
  obtain ⟨j, e3, e4⟩ := h2
  have := get_inj h e1 e3
  subst this
  rw [e2] at e4
  exact Option.some.inj e4

theorem Next.fun_left {xs : List ℝ} (h : xs.Pairwise (· < ·)) {a a' b : ℝ} (h1 : Next xs a b) (h2 : Next xs a' b) : a = a' := by
  obtain ⟨i, e1, e2⟩ := h1
  obtain ⟨j, e3, e4⟩ := h2
  have : i + 1 = j + 1 := get_inj h e2 e4
  have : i = j := by omega
  subst this
  rw [e1] at e3
  exact Option.some.inj e3

/-- Two corners of a lower half cell tell the cell. -/
theorem low_corner {a b c d : ℝ} (hab : a < b) (hcd : c < d) {P Q : ℝ × ℝ} (hP : P = (a, c) ∨ P = (a, d) ∨ P = (b, c))
    (hQ : Q = (a, c) ∨ Q = (a, d) ∨ Q = (b, c)) (hne : P ≠ Q) : a = min P.1 Q.1 ∧ c = min P.2 Q.2 := by
  rcases hP with rfl | rfl | rfl <;> rcases hQ with rfl | rfl | rfl <;>
    first
    | exact absurd rfl hne
    | simp [hab.le, hcd.le]

/-- Two corners of an upper half cell tell the cell. -/
theorem high_corner {a b c d : ℝ} (hab : a < b) (hcd : c < d) {P Q : ℝ × ℝ} (hP : P = (a, d) ∨ P = (b, c) ∨ P = (b, d))
    (hQ : Q = (a, d) ∨ Q = (b, c) ∨ Q = (b, d)) (hne : P ≠ Q) : b = max P.1 Q.1 ∧ d = max P.2 Q.2 := by
  rcases hP with rfl | rfl | rfl <;> rcases hQ with rfl | rfl | rfl <;>
    first
    | exact absurd rfl hne
    | simp [hab.le, hcd.le]

/-- A triangle that is a lower half cell. -/
def IsLow (xs ys : List ℝ) (L : Loader ℝ) (n : Text) (t : List Nat) : Prop :=
  ∃ a b c d i j k, Next xs a b ∧ Next ys c d ∧ NodeAt L n i (a, c) ∧ NodeAt L n j (a, d) ∧ NodeAt L n k (b, c) ∧
    t = mkElem [i, j, k]

/-- A triangle that is an upper half cell. -/
def IsHigh (xs ys : List ℝ) (L : Loader ℝ) (n : Text) (t : List Nat) : Prop :=
  ∃ a b c d i j k, Next xs a b ∧ Next ys c d ∧ NodeAt L n i (a, d) ∧ NodeAt L n j (b, c) ∧ NodeAt L n k (b, d) ∧
    t = mkElem [i, j, k]

theorem low_or_high (h : MeshOK2 m xs ys L) {n : Text} {r : MReg ℝ} (hr : L.regions.get n = some r) {t : List Nat}
    (ht : t ∈ r.tris) : IsLow xs ys L n t ∨ IsHigh xs ys L n t := by
  obtain ⟨p, q, s, i, j, k, ⟨hc, _⟩, h1, h2, h3, rfl⟩ := (h.region n r hr).tri_only t ht
  cases hc with
  | low hx hy => exact .inl ⟨_, _, _, _, i, j, k, hx, hy, h1, h2, h3, rfl⟩
  | high hx hy => exact .inr ⟨_, _, _, _, i, j, k, hx, hy, h1, h2, h3, rfl⟩

theorem point_of_mem {n : Text} {i j k u : Nat} {p q s P : ℝ × ℝ} (h1 : NodeAt L n i p) (h2 : NodeAt L n j q)
    (h3 : NodeAt L n k s) (hu : u ∈ mkElem [i, j, k]) (hP : NodeAt L n u P) : P = p ∨ P = q ∨ P = s := by
  rw [(mkElem_perm _).mem_iff] at hu
  simp only [List.mem_cons, List.not_mem_nil, or_false] at hu
  rcases hu with rfl | rfl | rfl
  · exact .inl (nodeAt_fun hP h1)
  · exact .inr (.inl (nodeAt_fun hP h2))
  · exact .inr (.inr (nodeAt_fun hP h3))

theorem low_unique (h : MeshOK2 m xs ys L) (hx : xs.Pairwise (· < ·)) (hy : ys.Pairwise (· < ·)) {n : Text} {t t' : List Nat}
    {u v : Nat} {P Q : ℝ × ℝ} (hP : NodeAt L n u P) (hQ : NodeAt L n v Q) (hne : P ≠ Q) (ht : IsLow xs ys L n t)
    (ht' : IsLow xs ys L n t') (hu : u ∈ t) (hv : v ∈ t) (hu' : u ∈ t') (hv' : v ∈ t') : t = t' := by
  obtain ⟨a, b, c, d, i, j, k, x1, y1, n1, n2, n3, rfl⟩ := ht
  obtain ⟨a', b', c', d', i', j', k', x1', y1', n1', n2', n3', rfl⟩ := ht'
  obtain ⟨e1, e2⟩ := low_corner (x1.lt hx) (y1.lt hy) (point_of_mem n1 n2 n3 hu hP) (point_of_mem n1 n2 n3 hv hQ) hne
  obtain ⟨e1', e2'⟩ := low_corner (x1'.lt hx) (y1'.lt hy) (point_of_mem n1' n2' n3' hu' hP) (point_of_mem n1' n2' n3' hv' hQ) hne
  have ha : a = a' := e1.trans e1'.symm
  have hc : c = c' := e2.trans e2'.symm
  subst ha; subst hc
  have hb := Next.fun_right hx x1 x1'
  have hd := Next.fun_right hy y1 y1'
  subst hb; subst hd
  rw [nodeAt_inj h n1 n1', nodeAt_inj h n2 n2', nodeAt_inj h n3 n3']

theorem high_unique (h : MeshOK2 m xs ys L) (hx : xs.Pairwise (· < ·)) (hy : ys.Pairwise (· < ·)) {n : Text} {t t' : List Nat}
    {u v : Nat} {P Q : ℝ × ℝ} (hP : NodeAt L n u P) (hQ : NodeAt L n v Q) (hne : P ≠ Q) (ht : IsHigh xs ys L n t)
    (ht' : IsHigh xs ys L n t') (hu : u ∈ t) (hv : v ∈ t) (hu' : u ∈ t') (hv' : v ∈ t') : t = t' := by
  obtain ⟨a, b, c, d, i, j, k, x1, y1, n1, n2, n3, rfl⟩ := ht
  obtain ⟨a', b', c', d', i', j', k', x1', y1', n1', n2', n3', rfl⟩ := ht'
  obtain ⟨e1, e2⟩ := high_corner (x1.lt hx) (y1.lt hy) (point_of_mem n1 n2 n3 hu hP) (point_of_mem n1 n2 n3 hv hQ) hne
  obtain ⟨e1', e2'⟩ := high_corner (x1'.lt hx) (y1'.lt hy) (point_of_mem n1' n2' n3' hu' hP) (point_of_mem n1' n2' n3' hv' hQ) hne
  have hb : b = b' := e1.trans e1'.symm
  have hd : d = d' := e2.trans e2'.symm
  subst hb; subst hd
  have ha := Next.fun_left hx x1 x1'
  have hc := Next.fun_left hy y1 y1'
  subst ha; subst hc
  rw [nodeAt_inj h n1 n1', nodeAt_inj h n2 n2', nodeAt_inj h n3 n3']

/-- The corners of a triangle are three nodes. -/
theorem tri_nodup (h : MeshOK2 m xs ys L) (hx : xs.Pairwise (· < ·)) (hy : ys.Pairwise (· < ·)) {n : Text} {r : MReg ℝ}
    (hr : L.regions.get n = some r) {t : List Nat} (ht : t ∈ r.tris) : t.length = 3 ∧ t.Pairwise (· < ·) := by
  have key : ∀ {i j k : Nat} {p q s : ℝ × ℝ}, NodeAt L n i p → NodeAt L n j q → NodeAt L n k s → p ≠ q → p ≠ s → q ≠ s →
      (mkElem [i, j, k]).length = 3 ∧ (mkElem [i, j, k]).Pairwise (· < ·) := by
    intro i j k p q s h1 h2 h3 n1 n2 n3
    refine ⟨by rw [(mkElem_perm _).length_eq]; rfl, ?_⟩
    have hnd : (mkElem [i, j, k]).Nodup := by
      rw [(mkElem_perm _).nodup_iff]
      simp only [List.nodup_cons, List.mem_cons, List.not_mem_nil, or_false, not_or, not_false_eq_true, List.nodup_nil, and_true]
      refine ⟨⟨?_, ?_⟩, ?_⟩ <;> rintro rfl
      · exact n1 (nodeAt_fun h1 h2)
      · exact n2 (nodeAt_fun h1 h3)
      · exact n3 (nodeAt_fun h2 h3)
    exact (mkElem_sorted [i, j, k]).imp₂ (fun a b h1 h2 => lt_of_le_of_ne h1 h2) hnd
  rcases low_or_high h hr ht with h1 | h1
  · obtain ⟨a, b, c, d, i, j, k, x1, y1, n1, n2, n3, rfl⟩ := h1
    have := x1.lt hx; have := y1.lt hy
    exact key n1 n2 n3 (by simp; intro; linarith) (by simp; intro; linarith) (by simp; intro; linarith)
  · obtain ⟨a, b, c, d, i, j, k, x1, y1, n1, n2, n3, rfl⟩ := h1
    have := x1.lt hx; have := y1.lt hy
    exact key n1 n2 n3 (by simp; intro; linarith) (by simp; intro; linarith) (by simp; intro; linarith)

theorem node_point (h : MeshOK2 m xs ys L) {n : Text} {r : MReg ℝ} (hr : L.regions.get n = some r) {k : Nat}
    (hk : k < r.nodes.length) : ∃ p, NodeAt L n k p := by
  have hc := (h.region n r hr).nodes_coord r.nodes[k] (List.getElem_mem hk)
  have hz := ((h.coords L.coords[r.nodes[k]]).1 (List.getElem_mem hc)).2.2
  refine ⟨(L.coords[r.nodes[k]].1, L.coords[r.nodes[k]].2.1), r, r.nodes[k], hr, List.getElem?_eq_getElem hk, ?_⟩
  rw [List.getElem?_eq_getElem hc]
  simp only [Option.some.injEq]
  ext <;> simp [hz]

/-- What `Region::FinalizeMesh` asserts of a region of dimension 2, `Region.cc:435-469`: an edge is the side of one or
of two triangles. -/
def topo2 (es ts : List (List Nat)) : Bool :=
  es.all fun e => let k := (ts.filter fun t => e.all (· ∈ t)).length; k = 1 || k = 2

theorem le_two_of_inj {l : List (List Nat)} (hl : l.Nodup) {f : List Nat → Bool} (hf : ∀ a ∈ l, ∀ b ∈ l, f a = f b → a = b) :
    l.length ≤ 2 := by
  have h1 : (l.map f).Nodup := List.Nodup.map_on (fun a ha b hb => hf a ha b hb) hl
  have h2 : l.map f ⊆ [true, false] := by intro b _; cases b <;> simp
  have := (List.subperm_of_subset h1 h2).length_le
  simpa using this

/-- **C66** Every edge of a region is the side of one or of two of its triangles. -/
theorem edge_topology (h : MeshOK2 m xs ys L) (hx : xs.Pairwise (· < ·)) (hy : ys.Pairwise (· < ·)) {n : Text} {r : MReg ℝ}
    (hr : L.regions.get n = some r) : topo2 (sortUniq r.edges) (sortUniq r.tris) = true := by
  unfold topo2
  rw [List.all_eq_true]
  intro e he
  rw [mem_sortUniq] at he
  have R := h.region n r hr
  obtain ⟨hl, t, ht, hs⟩ := (R.edges e).1 he
  obtain ⟨_, hw⟩ := tri_nodup h hx hy hr ht
  have hwe := hw.sublist hs
  match e, hl, hs, hwe with
  | [u, v], _, hs, hwe =>
    have huv : u < v := by simpa using hwe
    have hu := hs.subset (by simp : u ∈ [u, v])
    have hv := hs.subset (by simp : v ∈ [u, v])
    obtain ⟨P, hP⟩ := node_point h hr ((R.nodes u).2 ⟨t, ht, hu⟩)
    obtain ⟨Q, hQ⟩ := node_point h hr ((R.nodes v).2 ⟨t, ht, hv⟩)
    have hne : P ≠ Q := by
      rintro rfl
      exact absurd (nodeAt_inj h hP hQ) (by omega)
    have hnd : ((sortUniq r.tris).filter fun t => [u, v].all (· ∈ t)).Nodup :=
      ((sortUniq_sorted r.tris).imp fun h => ne_of_lt h).filter _
    have h2 : ((sortUniq r.tris).filter fun t => [u, v].all (· ∈ t)).length ≤ 2 := by
      refine le_two_of_inj hnd (f := fun t => decide (IsLow xs ys L n t)) ?_
      intro a ha b hb hab
      simp only [List.mem_filter, mem_sortUniq, List.all_cons, List.all_nil, Bool.and_true, Bool.and_eq_true,
        decide_eq_true_eq] at ha hb
      by_cases hlow : IsLow xs ys L n a
      · have hlow' : IsLow xs ys L n b := by simpa [hlow] using hab
        exact low_unique h hx hy hP hQ hne hlow hlow' ha.2.1 ha.2.2 hb.2.1 hb.2.2
      · have hlow' : ¬ IsLow xs ys L n b := by simpa [hlow] using hab
        have h1 := (low_or_high h hr ha.1).resolve_left hlow
        have h2 := (low_or_high h hr hb.1).resolve_left hlow'
        exact high_unique h hx hy hP hQ hne h1 h2 ha.2.1 ha.2.2 hb.2.1 hb.2.2
    have h1 : 0 < ((sortUniq r.tris).filter fun t => [u, v].all (· ∈ t)).length := by
      apply List.length_pos_of_mem (a := t)
      simp only [List.mem_filter, mem_sortUniq, List.all_cons, List.all_nil, Bool.and_true, Bool.and_eq_true,
        decide_eq_true_eq]
      exact ⟨ht, hu, hv⟩
    dsimp only
    simp only [Bool.or_eq_true, decide_eq_true_eq]
    omega

/-! ### The device -/

/-- A region of the device. -/
def devReg (env : Env ℝ) (r : MReg ℝ) : Reg ℝ :=
  { material := r.material, dim := 2, nodes := r.nodes, edges := sortUniq r.edges, tris := sortUniq r.tris
    nm := builtins env 2 .node, em := builtins env 2 .edge, tm := builtins env 2 .tri, um := builtins env 2 .tet }

/-- An interface of the device. -/
def devIfc (o : MIfc ℝ) : Ifc :=
  { region0 := o.region0, region1 := o.region1, nodes0 := o.pairs.map Prod.fst, nodes1 := o.pairs.map Prod.snd }

/-- The device of a mesh. -/
def devOf (env : Env ℝ) (L : Loader ℝ) : Dev ℝ :=
  { dim := 2, coords := L.coords
    regions := L.regions.map fun e => (e.1, devReg env e.2)
    contacts := L.contacts.map fun e => (e.1, { region := e.2.region, material := e.2.material, nodes := e.2.elems.nodes })
    ifaces := L.ifaces.map fun e => (e.1, devIfc e.2) }

theorem topo_devReg (h : MeshOK2 m xs ys L) (env : Env ℝ) {n : Text} {r : MReg ℝ} (hr : L.regions.get n = some r) :
    r.topo.defaults env = devReg env r := by
  unfold MReg.topo Reg.defaults devReg
  rw [dim_two h hr]
  rfl

theorem asserts_true (h : MeshOK2 m xs ys L) (hx : xs.Pairwise (· < ·)) (hy : ys.Pairwise (· < ·)) {env : Env ℝ}
    (henv : ∀ k es ts, topo2 es ts = true → env.topoOK 2 k es ts [] = true) {n : Text} {r : MReg ℝ}
    (hr : L.regions.get n = some r) : r.topo.asserts env L.coords.length = true := by
  obtain ⟨e1, e2⟩ := elems_lt h hr
  unfold MReg.topo Reg.asserts
  rw [dim_two h hr]
  simp only [Bool.and_eq_true, List.all_eq_true, decide_eq_true_eq, mem_sortUniq]
  refine ⟨⟨⟨⟨(h.region n r hr).nodes_coord, e1⟩, e2⟩, ?_⟩, henv _ _ _ (edge_topology h hx hy hr)⟩
  simp

theorem mkRegions_all {env : Env ℝ} {nc : Nat} : ∀ (l : SMap Text (MReg ℝ)) (acc : SMap Text (Reg ℝ)),
    SMap.Sorted l → (∀ x ∈ acc, ∀ e ∈ l, x.1 < e.1) → (∀ e ∈ l, e.2.topo.asserts env nc = true) →
    mkRegions env nc l acc = (.ok, acc ++ l.map fun e => (e.1, e.2.topo.defaults env))
  | [], acc, _, _, _ => by simp [mkRegions]
  | e :: l, acc, hs, ha, h => by
    obtain ⟨h1, h2⟩ := List.pairwise_cons.mp hs
    obtain ⟨n, r⟩ := e
    rw [mkRegions, if_pos (h (n, r) (by simp)), SMap.put_last fun x hx => ha x hx (n, r) (by simp),
      mkRegions_all l _ h2 ?_ fun x hx => h x (by simp [hx])]
    · simp
    · intro x hx y hy
      rcases List.mem_append.1 hx with hx | hx
      · exact ha x hx y (by simp [hy])
      · simp only [List.mem_singleton] at hx
        subst hx
        exact h1 y hy

theorem mkContacts_all {rs : SMap Text (Reg ℝ)} {f : MCon ℝ → Con} : ∀ (l : SMap Text (MCon ℝ)) (acc : SMap Text Con),
    SMap.Sorted l → (∀ x ∈ acc, ∀ e ∈ l, x.1 < e.1) → (∀ e ∈ l, mkContact rs e.2 = some (f e.2)) →
    mkContacts rs l acc = (true, acc ++ l.map fun e => (e.1, f e.2))
  | [], acc, _, _, _ => by simp [mkContacts]
  | e :: l, acc, hs, ha, h => by
    obtain ⟨h1, h2⟩ := List.pairwise_cons.mp hs
    obtain ⟨n, r⟩ := e
    simp only [mkContacts, h (n, r) (by simp)]
    rw [SMap.put_last fun x hx => ha x hx (n, r) (by simp), mkContacts_all l _ h2 ?_ fun x hx => h x (by simp [hx])]
    · simp
    · intro x hx y hy
      rcases List.mem_append.1 hx with hx | hx
      · exact ha x hx y (by simp [hy])
      · simp only [List.mem_singleton] at hx
        subst hx
        exact h1 y hy

theorem mkIfaces_all {rs : SMap Text (Reg ℝ)} {f : MIfc ℝ → Ifc} : ∀ (l : SMap Text (MIfc ℝ)) (acc : SMap Text Ifc),
    SMap.Sorted l → (∀ x ∈ acc, ∀ e ∈ l, x.1 < e.1) → (∀ e ∈ l, mkIface rs e.2 = some (f e.2)) →
    mkIfaces rs l acc = (true, acc ++ l.map fun e => (e.1, f e.2))
  | [], acc, _, _, _ => by simp [mkIfaces]
  | e :: l, acc, hs, ha, h => by
    obtain ⟨h1, h2⟩ := List.pairwise_cons.mp hs
    obtain ⟨n, r⟩ := e
    simp only [mkIfaces, h (n, r) (by simp)]
    rw [SMap.put_last fun x hx => ha x hx (n, r) (by simp), mkIfaces_all l _ h2 ?_ fun x hx => h x (by simp [hx])]
    · simp
    · intro x hx y hy
      rcases List.mem_append.1 hx with hx | hx
      · exact ha x hx y (by simp [hy])
      · simp only [List.mem_singleton] at hx
        subst hx
        exact h1 y hy

theorem nodeAt_lt {n : Text} {k : Nat} {p : ℝ × ℝ} {r : MReg ℝ} (hr : L.regions.get n = some r) (h : NodeAt L n k p) :
    k < r.nodes.length := by
  obtain ⟨r', i, h1, h2, _⟩ := h
  rw [hr] at h1; cases h1
  exact (List.getElem?_eq_some_iff.1 h2).1

theorem foldl_finish {env : Env ℝ} {dn : Text} : ∀ (l : SMap Text (MReg ℝ)) (devs : Devs ℝ) (d : Dev ℝ),
    SMap.Sorted devs → (∀ e ∈ l, e.2.sols = [] ∧ e.2.eqns = [] ∧ ∃ r, d.regions.get e.1 = some r) →
    SMap.Sorted d.regions →
    l.foldl (fun st e => finishRegion env dn st e.1 e.2) (true, devs.put dn d) = (true, devs.put dn d)
  | [], devs, d, _, _, _ => rfl
  | e :: l, devs, d, hs, h, hd => by
    obtain ⟨h1, h2, r, hr⟩ := h e (by simp)
    have hself : SMap.mod d.regions e.1 (fun _ => r) = d.regions := by
      apply SMap.ext (sorted_mod hd _ _) hd
      intro x
      rw [get_mod]
      split
      · rename_i hx; subst hx; rw [hr]; rfl
      · rfl
    have : finishRegion env dn (true, devs.put dn d) e.1 e.2 = (true, devs.put dn d) := by
      unfold finishRegion
      simp only [SMap.get_put, if_pos, Option.bind_some, hr, h1, h2]
      simp only [addSols, solCmds, eqnCmds, List.filter_nil, List.map_nil, List.append_nil, runAll, Bool.and_self]
      rw [SMap.mod_put hs, hself]
    rw [List.foldl_cons, this]
    exact foldl_finish l devs d hs (fun x hx => h x (by simp [hx])) hd

/-- **C66** `create_device` makes the device of the mesh, if every contact and every interface that the mesh has names
regions that it has. -/
theorem device_made (h : MeshOK2 m xs ys L) (hx : xs.Pairwise (· < ·)) (hy : ys.Pairwise (· < ·)) (hne : L.regions ≠ [])
    {env : Env ℝ} (henv : ∀ k es ts, topo2 es ts = true → env.topoOK 2 k es ts [] = true) {dn : Text} {devs : Devs ℝ}
    (hdevs : SMap.Sorted devs) (hn : devs.has dn = false)
    (hc : ∀ n o, L.contacts.get n = some o → ∃ r, L.regions.get o.region = some r)
    (hi : ∀ n o, L.ifaces.get n = some o → (∃ r, L.regions.get o.region0 = some r) ∧ ∃ r, L.regions.get o.region1 = some r) :
    instantiate env { L with name := dn } devs = (.ok, devs.put dn (devOf env L)) := by
  have hget : ∀ e ∈ L.regions, L.regions.get e.1 = some e.2 := fun e he => SMap.get_of_mem h.regions_sorted he
  have hrs : mkRegions env L.coords.length L.regions [] = (.ok, L.regions.map fun e => (e.1, devReg env e.2)) := by
    rw [mkRegions_all L.regions [] h.regions_sorted (by simp) fun e he => asserts_true h hx hy henv (hget e he)]
    rw [List.nil_append]
    congr 1
    apply List.map_congr_left
    intro e he
    rw [topo_devReg h env (hget e he)]
  have hregs : ∀ n, SMap.get (L.regions.map fun e => (e.1, devReg env e.2)) n = (L.regions.get n).map (devReg env) :=
    fun n => SMap.get_map (fun _ r => devReg env r) L.regions n
  have hcs : mkContacts (L.regions.map fun e => (e.1, devReg env e.2)) L.contacts [] = (true, (devOf env L).contacts) := by
    rw [mkContacts_all (f := fun o => { region := o.region, material := o.material, nodes := o.elems.nodes })
      L.contacts [] h.contacts_sorted (by simp)]
    · rfl
    · intro e he
      have hg := SMap.get_of_mem h.contacts_sorted he
      obtain ⟨r, hr⟩ := hc _ _ hg
      have C := h.contact _ _ hg
      have hall : e.2.elems.nodes.all (fun i => decide (i < (devReg env r).nodes.length)) = true := by
        rw [List.all_eq_true]
        intro k hk
        obtain ⟨p, hp, _⟩ := C.node_only k hk
        exact decide_eq_true (nodeAt_lt hr hp)
      obtain ⟨c1, c2, c3, _⟩ := C.rest
      simp only [mkContact, hregs, hr, Option.map_some, MReg.decompose, c1, c2, c3, List.isEmpty_nil, Bool.not_true,
        Bool.false_and, Bool.and_true, Bool.false_eq_true, if_false, hall, if_true, getElems, List.filterMap_nil]
  have his : mkIfaces (L.regions.map fun e => (e.1, devReg env e.2)) L.ifaces [] = (true, (devOf env L).ifaces) := by
    rw [mkIfaces_all (f := devIfc) L.ifaces [] h.ifaces_sorted (by simp)]
    · rfl
    · intro e he
      have hg := SMap.get_of_mem h.ifaces_sorted he
      obtain ⟨⟨r0, hr0⟩, ⟨r1, hr1⟩⟩ := hi _ _ hg
      have C := h.iface _ _ hg
      have hall : e.2.pairs.all (fun p => decide (p.1 < (devReg env r0).nodes.length) &&
          decide (p.2 < (devReg env r1).nodes.length)) = true := by
        rw [List.all_eq_true]
        intro k hk
        obtain ⟨p, hp, hq, _⟩ := C.pair_only k hk
        rw [Bool.and_eq_true]
        exact ⟨decide_eq_true (nodeAt_lt hr0 hp), decide_eq_true (nodeAt_lt hr1 hq)⟩
      obtain ⟨c1, c2, _⟩ := C.rest
      simp only [mkIface, hregs, hr0, hr1, Option.map_some, MReg.decompose, c1, c2, List.isEmpty_nil, Bool.not_true,
        Bool.false_and, Bool.and_true, Bool.false_eq_true, if_false, hall, if_true, getElems, List.filterMap_nil,
        List.filter_nil]
      congr 2 <;> split <;> simp_all
  have hdim : ({ L with name := dn } : Loader ℝ).dim1 = 2 := by
    unfold Loader.dim1
    dsimp only
    split
    · rename_i h0; exact absurd h0 hne
    · rename_i n r _ e
      exact dim_two h (hget (n, r) (by rw [e]; simp))
  have hc1 : (L.ifaces.flatMap fun e => solCmds e.2.sols ++ eqnCmds e.2.eqns) = [] := by
    rw [List.flatMap_eq_nil_iff]
    intro e he
    obtain ⟨_, _, c3, c4⟩ := (h.iface _ _ (SMap.get_of_mem h.ifaces_sorted he)).rest
    rw [c3, c4]; rfl
  have hc2 : (L.contacts.flatMap fun e => eqnCmds e.2.eqns) = [] := by
    rw [List.flatMap_eq_nil_iff]
    intro e he
    obtain ⟨_, _, _, c4⟩ := (h.contact _ _ (SMap.get_of_mem h.contacts_sorted he)).rest
    rw [c4]; rfl
  unfold instantiate
  rw [hdim]
  dsimp only
  rw [hn, hrs]
  simp only [Bool.false_eq_true, if_false, ne_eq, not_true_eq_false, hcs, his, hc1, hc2, runAll]
  rw [foldl_finish L.regions devs]
  · rfl
  · exact hdevs
  · intro e he
    have R := h.region _ _ (hget e he)
    refine ⟨R.rest.2.1, R.rest.2.2, devReg env e.2, ?_⟩
    rw [hregs, hget e he]; rfl
  · exact SMap.sorted_map (fun _ r => devReg env r) h.regions_sorted

end Verif.Mesh2d
