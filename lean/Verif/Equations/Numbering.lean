import Mathlib.Data.List.Basic
import Mathlib.Data.List.Nodup
import Mathlib.Tactic.Ring
/-
Model of the numbering of the unknowns before a solve.
Code: `/repo/src/math/Newton.cc:51-127` (NumberEquationsAndSetDimension), `/repo/src/Geometry/Device.cc:259-308`
(SetBaseEquationNumber, CalcMaxEquationNumber), `/repo/src/Geometry/Region.cc:1251-1280` (GetEquationNumber,
GetMaxEquationNumber), `/repo/src/Circuit/data/NodeKeeper.cc:147-230` (SetNodeNumbers, GetIndexNumber,
GetEquationNumber).

`size_t` arithmetic is modulo `W` (2^64 in the code, arbitrary here).  Devices and regions are visited in the order of the
lists (the order of the names in `std::map`); equations of a region have the indices 0..n-1 (C18), nodes the indices 0..m-1.
-/
namespace Verif.Numbering

/-- What the numbering needs to know of a region, and the data member `baseeqnnum`. -/
structure Region where
  neq : Nat
  nnodes : Nat
  base : Nat
  deriving Repr, DecidableEq

/-- Region.cc:1251-1258 -/
def eqNumber (W : Nat) (r : Region) (e i : Nat) : Nat := (r.base + e * r.nnodes + i) % W

/-- Region.cc:1271-1279 -/
def regionMax (W : Nat) (r : Region) : Nat := (r.base + r.neq * r.nnodes + (W - 1)) % W

/-- Device.cc:272-304: the loop over the regions with the running variables `x` and `hasEquations`. -/
def calcLoop (W : Nat) : Nat → Bool → List Region → List Region × Nat × Bool
  | x, has, [] => ([], x, has)
  | x, has, r :: rs =>
    if r.neq ≠ 0 then
      let r' := { r with base := x }
      let x' := (regionMax W r' + 1) % W
      let res := calcLoop W x' true rs
      (r' :: res.1, res.2)
    else
      let res := calcLoop W x has rs
      (r :: res.1, res.2)

/-- Device.cc:266-308: the regions with their base numbers set, and the maximum equation number (`W-1`, i.e.
`size_t(-1)`, if there are none). -/
def calcDevice (W : Nat) (base : Nat) (rs : List Region) : List Region × Nat :=
  let res := calcLoop W base false rs
  (res.1, if res.2.2 then (res.2.1 + (W - 1)) % W else W - 1)

/-- Newton.cc:68-106: the loop over the devices. -/
def numberDevices (W : Nat) : Nat → List (List Region) → List (List Region) × Nat
  | eqnnum, [] => ([], eqnnum)
  | eqnnum, d :: ds =>
    let r := calcDevice W eqnnum d
    let eqnnum := if r.2 ≠ W - 1 then (r.2 + 1) % W else eqnnum
    let res := numberDevices W eqnnum ds
    (r.1 :: res.1, res.2)

/-- NodeKeeper.cc:163-183: the index of each circuit node in table order, `W-1` for ground. `true` marks ground. -/
def nodeNumbers (W : Nat) : Nat → List Bool → List Nat × Nat
  | i, [] => ([], i)
  | i, g :: gs =>
    if g then
      let res := nodeNumbers W i gs
      ((W - 1) :: res.1, res.2)
    else
      let res := nodeNumbers W ((i + 1) % W) gs
      (i :: res.1, res.2)

/-- NodeKeeper.cc:221-230: the equation number of a circuit node with a given index. -/
def circuitEqNumber (W min idx : Nat) : Nat := if idx ≠ W - 1 then (idx + min) % W else idx

structure Result where
  devices : List (List Region)     -- regions with base numbers
  circuit : List Nat               -- equation number of each circuit node, in table order; `W-1` for ground
  dim : Nat                        -- the returned number of equations

/-- Newton.cc:52-127 -/
def number (W : Nat) (devs : List (List Region)) (nodes : List Bool) : Result :=
  let d := numberDevices W 0 devs
  if nodes ≠ [] then
    let n := nodeNumbers W 0 nodes
    let max := (d.2 + n.2 + (W - 1)) % W
    { devices := d.1, circuit := n.1.map (circuitEqNumber W d.2), dim := (max + 1) % W }
  else { devices := d.1, circuit := [], dim := d.2 }

/-! ### specification -/

/-- all equation numbers of the unknowns of a region: one per equation and node -/
def Region.rows (W : Nat) (r : Region) : List Nat :=
  (List.range r.neq).flatMap (fun e => (List.range r.nnodes).map (fun i => eqNumber W r e i))

/-- the number of unknowns -/
def unknowns (devs : List (List Region)) (nodes : List Bool) : Nat :=
  ((devs.flatten).map (fun r => r.neq * r.nnodes)).sum + nodes.countP (fun g => !g)

/-- the rows used, in the order devices, regions, equations, nodes, then circuit nodes other than ground -/
def Result.rows (W : Nat) (res : Result) (nodes : List Bool) : List Nat :=
  (res.devices.flatten).flatMap (Region.rows W) ++
    (((nodes.zip res.circuit).filter (fun p => !p.1)).map Prod.snd)

/-! ### proofs -/

theorem mod_pred_succ {W a : Nat} (h : a < W) : ((a + (W - 1)) % W + 1) % W = a := by
  have hW : 0 < W := by omega
  have h1 : a + (W - 1) + 1 = a + W := by omega
  rw [Nat.mod_add_mod, h1, Nat.add_mod_right, Nat.mod_eq_of_lt h]

theorem flatMap_range_mul (n m b : Nat) :
    (List.range n).flatMap (fun e => (List.range m).map (fun i => b + e * m + i)) =
      (List.range (n * m)).map (fun k => b + k) := by
  induction n with
  | zero => simp
  | succ n ih =>
    rw [List.range_succ, List.flatMap_append, ih, Nat.succ_mul, List.range_add, List.map_append]
    congr 1
    simp only [List.flatMap_singleton, List.map_map]
    apply List.map_congr_left
    intro i _
    simp only [Function.comp]; omega

theorem rows_eq (W : Nat) (r : Region) (h : r.base + r.neq * r.nnodes ≤ W) :
    r.rows W = (List.range (r.neq * r.nnodes)).map (fun k => r.base + k) := by
  rw [← flatMap_range_mul]
  unfold Region.rows
  have key : ∀ e ∈ List.range r.neq, (List.range r.nnodes).map (fun i => eqNumber W r e i) =
      (List.range r.nnodes).map (fun i => r.base + e * r.nnodes + i) := by
    intro e he
    apply List.map_congr_left
    intro i hi
    unfold eqNumber
    apply Nat.mod_eq_of_lt
    have he := List.mem_range.mp he
    have hi := List.mem_range.mp hi
    have : (e + 1) * r.nnodes ≤ r.neq * r.nnodes := Nat.mul_le_mul_right _ he
    rw [Nat.succ_mul] at this
    omega
  rw [List.flatMap_def, List.flatMap_def, List.map_congr_left key]

theorem range_append_map (a b : Nat) : List.range a ++ (List.range b).map (fun k => a + k) = List.range (a + b) := by
  rw [List.range_add]

def size (rs : List Region) : Nat := (rs.map (fun r => r.neq * r.nnodes)).sum

theorem calcLoop_spec (W : Nat) : ∀ (rs : List Region) (x : Nat) (has : Bool), x + size rs < W →
    (calcLoop W x has rs).2.1 = x + size rs ∧
    ((calcLoop W x has rs).1.flatMap (Region.rows W)) = (List.range (size rs)).map (fun k => x + k) ∧
    (calcLoop W x has rs).1.map (fun r => (r.neq, r.nnodes)) = rs.map (fun r => (r.neq, r.nnodes)) ∧
    ((calcLoop W x has rs).2.2 = false → size rs = 0) := by
  intro rs
  induction rs with
  | nil => intro x has h; simp [calcLoop, size]
  | cons r rs ih =>
    intro x has h
    have hs : size (r :: rs) = r.neq * r.nnodes + size rs := by simp [size]
    rw [hs] at h
    unfold calcLoop
    by_cases hn : r.neq ≠ 0
    · rw [if_pos hn]
      have hx : (regionMax W { r with base := x } + 1) % W = x + r.neq * r.nnodes := by
        unfold regionMax
        exact mod_pred_succ (by simp only; omega)
      simp only
      rw [hx]
      obtain ⟨h1, h2, h3, h4⟩ := ih (x + r.neq * r.nnodes) true (by omega)
      refine ⟨by rw [h1, hs]; omega, ?_, ?_, ?_⟩
      · rw [List.flatMap_cons, h2, rows_eq W _ (by simp only; omega), hs, List.range_add, List.map_append]
        simp only [List.map_map]
        congr 1
        apply List.map_congr_left
        intro k _; simp only [Function.comp]; omega
      · simp only [List.map_cons, h3]
      · intro hf
        have hmono : ∀ (l : List Region) x, (calcLoop W x true l).2.2 = true := by
          intro l
          induction l with
          | nil => intro x; rfl
          | cons a l ihl =>
            intro x; simp only [calcLoop]
            split <;> exact ihl _
        rw [hmono] at hf; cases hf
    · rw [if_neg hn]
      have hn0 : r.neq = 0 := by simpa using hn
      obtain ⟨h1, h2, h3, h4⟩ := ih x has (by omega)
      refine ⟨by rw [h1, hs, hn0]; omega, ?_, by simp only [List.map_cons, h3], ?_⟩
      · rw [List.flatMap_cons, h2]
        simp only [Region.rows, hn0, List.range_zero, List.flatMap_nil, List.nil_append]
        rw [hs, hn0]; simp
      · intro hf; rw [hs, hn0, h4 hf]; omega

theorem numberDevices_spec (W : Nat) : ∀ (ds : List (List Region)) (x : Nat), x + size ds.flatten < W →
    (numberDevices W x ds).2 = x + size ds.flatten ∧
    (((numberDevices W x ds).1.flatten).flatMap (Region.rows W)) = (List.range (size ds.flatten)).map (fun k => x + k) ∧
    (numberDevices W x ds).1.map (List.map (fun r => (r.neq, r.nnodes))) = ds.map (List.map (fun r => (r.neq, r.nnodes))) := by
  intro ds
  induction ds with
  | nil => intro x h; simp [numberDevices, size]
  | cons d ds ih =>
    intro x h
    have hs : size (d :: ds).flatten = size d + size ds.flatten := by simp [size]
    rw [hs] at h
    obtain ⟨c1, c2, c3, c4⟩ := calcLoop_spec W d x false (by omega)
    have hx : (if (calcDevice W x d).2 ≠ W - 1 then ((calcDevice W x d).2 + 1) % W else x) = x + size d := by
      unfold calcDevice
      simp only
      cases hh : (calcLoop W x false d).2.2 with
      | false =>
        simp only [Bool.false_eq_true, if_false, ne_eq, not_true_eq_false]
        have := c4 hh; omega
      | true =>
        simp only [if_true]
        rw [c1]
        by_cases hz : (x + size d + (W - 1)) % W = W - 1
        · rw [if_neg (by simpa using hz)]
          have := mod_pred_succ (W := W) (a := x + size d) (by omega)
          rw [hz] at this
          have hW : W - 1 + 1 = W := by omega
          rw [hW, Nat.mod_self] at this
          omega
        · rw [if_pos hz]
          exact mod_pred_succ (by omega)
    unfold numberDevices
    simp only
    rw [hx]
    obtain ⟨h1, h2, h3⟩ := ih (x + size d) (by omega)
    refine ⟨by rw [h1, hs]; omega, ?_, ?_⟩
    · rw [List.flatten_cons, List.flatMap_append, h2]
      have : (calcDevice W x d).1 = (calcLoop W x false d).1 := rfl
      rw [this, c2, hs, List.range_add, List.map_append]
      simp only [List.map_map]
      congr 1
      apply List.map_congr_left
      intro k _; simp only [Function.comp]; omega
    · have : (calcDevice W x d).1 = (calcLoop W x false d).1 := rfl
      rw [List.map_cons, List.map_cons, h3, this, c3]

theorem nodeNumbers_spec (W : Nat) : ∀ (gs : List Bool) (i : Nat), i + gs.countP (fun g => !g) < W →
    (nodeNumbers W i gs).2 = i + gs.countP (fun g => !g) ∧
    (((gs.zip (nodeNumbers W i gs).1).filter (fun p => !p.1)).map Prod.snd) =
      (List.range (gs.countP (fun g => !g))).map (fun k => i + k) ∧
    (nodeNumbers W i gs).1.length = gs.length ∧
    (∀ p ∈ gs.zip (nodeNumbers W i gs).1, p.1 = true → p.2 = W - 1) := by
  intro gs
  induction gs with
  | nil => intro i h; simp [nodeNumbers]
  | cons g gs ih =>
    intro i h
    unfold nodeNumbers
    cases g with
    | true =>
      simp only [if_true]
      have hc : (true :: gs).countP (fun g => !g) = gs.countP (fun g => !g) := by simp
      rw [hc] at h ⊢
      obtain ⟨h1, h2, h3, h4⟩ := ih i h
      refine ⟨h1, ?_, by simp [h3], ?_⟩
      · simp only [List.zip_cons_cons]; rw [List.filter_cons_of_neg (by simp)]; exact h2
      · intro p hp ht
        simp only [List.zip_cons_cons, List.mem_cons] at hp
        rcases hp with rfl | hp
        · rfl
        · exact h4 p hp ht
    | false =>
      simp only [Bool.false_eq_true, if_false]
      have hc : (false :: gs).countP (fun g => !g) = gs.countP (fun g => !g) + 1 := by simp
      rw [hc] at h ⊢
      rw [Nat.mod_eq_of_lt (show i + 1 < W by omega)]
      obtain ⟨h1, h2, h3, h4⟩ := ih (i + 1) (by omega)
      refine ⟨by rw [h1]; omega, ?_, by simp [h3], ?_⟩
      · simp only [List.zip_cons_cons]
        rw [List.filter_cons_of_pos (by simp), List.map_cons, h2, List.range_succ_eq_map, List.map_cons, List.map_map]
        congr 1
        apply List.map_congr_left
        intro k _; simp only [Function.comp]; omega
      · intro p hp ht
        simp only [List.zip_cons_cons, List.mem_cons] at hp
        rcases hp with rfl | hp
        · cases ht
        · exact h4 p hp ht

theorem map_circuit (W min n : Nat) (gs : List Bool) (idx : List Nat)
    (h : ((gs.zip idx).filter (fun p => !p.1)).map Prod.snd = List.range n) (hn : min + n < W) :
    (((gs.zip (idx.map (circuitEqNumber W min))).filter (fun p => !p.1)).map Prod.snd) =
      (List.range n).map (fun k => min + k) := by
  rw [List.zip_map_right, List.filter_map, List.map_map]
  have e : (fun p : Bool × Nat => !p.1) ∘ Prod.map id (circuitEqNumber W min) = fun p => !p.1 := by
    funext p; rfl
  rw [e, ← h, List.map_map]
  apply List.map_congr_left
  intro p hp
  have hp2 : p.2 ∈ List.range n := by rw [← h]; exact List.mem_map.mpr ⟨p, hp, rfl⟩
  have := List.mem_range.mp hp2
  simp only [Function.comp, Prod.map]
  unfold circuitEqNumber
  rw [if_pos (by omega), Nat.mod_eq_of_lt (by omega)]
  omega

/-- C19: for every set of devices, regions, equation counts, node counts and circuit nodes (as long as `size_t` can
count the unknowns), listing the equation numbers of all unknowns gives 0, 1, ..., N-1 in order, where N is the
returned dimension; the numbering does not change the number of equations or nodes of a region. -/
theorem rows_are_range (W : Nat) (devs : List (List Region)) (nodes : List Bool) (h : unknowns devs nodes < W) :
    (number W devs nodes).dim = unknowns devs nodes ∧
    (number W devs nodes).rows W nodes = List.range (number W devs nodes).dim ∧
    (number W devs nodes).devices.map (List.map (fun r => (r.neq, r.nnodes))) =
      devs.map (List.map (fun r => (r.neq, r.nnodes))) := by
  unfold unknowns at h ⊢
  have hsz : ((devs.flatten).map (fun r => r.neq * r.nnodes)).sum = size devs.flatten := rfl
  rw [hsz] at h ⊢
  obtain ⟨d1, d2, d3⟩ := numberDevices_spec W devs 0 (by omega)
  rw [Nat.zero_add] at d1
  have d2' : ((numberDevices W 0 devs).1.flatten).flatMap (Region.rows W) = List.range (size devs.flatten) := by
    rw [d2]; simp
  unfold number
  simp only
  by_cases hn : nodes ≠ []
  · rw [if_pos hn]
    obtain ⟨n1, n2, n3, n4⟩ := nodeNumbers_spec W nodes 0 (by omega)
    rw [Nat.zero_add] at n1
    simp only
    rw [d1, n1, mod_pred_succ h]
    refine ⟨rfl, ?_, d3⟩
    unfold Result.rows
    simp only
    rw [d2', map_circuit W (size devs.flatten) (nodes.countP (fun g => !g)) nodes _ (by rw [n2]; simp) (by omega),
      range_append_map]
  · have hn' : nodes = [] := by simpa using hn
    subst hn'
    rw [if_neg (by simp)]
    simp only [List.countP_nil, Nat.add_zero]
    refine ⟨d1, ?_, d3⟩
    unfold Result.rows
    simp only [List.zip_nil_left, List.filter_nil, List.map_nil, List.append_nil]
    rw [d2', d1]

/-- C19: ground has no row. -/
theorem ground_has_no_row (W : Nat) (devs : List (List Region)) (nodes : List Bool) (h : unknowns devs nodes < W)
    (p : Bool × Nat) (hp : p ∈ nodes.zip (number W devs nodes).circuit) (hg : p.1 = true) : p.2 = W - 1 := by
  unfold number at hp
  simp only at hp
  by_cases hn : nodes ≠ []
  · rw [if_pos hn] at hp
    simp only at hp
    have hc : 0 + nodes.countP (fun g => !g) < W := by unfold unknowns at h; omega
    obtain ⟨_, _, _, n4⟩ := nodeNumbers_spec W nodes 0 hc
    rw [List.zip_map_right] at hp
    obtain ⟨q, hq, rfl⟩ := List.mem_map.mp hp
    have := n4 q hq hg
    simp only [Prod.map]
    rw [this]
    unfold circuitEqNumber
    rw [if_neg (by simp)]
  · rw [if_neg hn] at hp; simp at hp

/-- C19, in terms of unknowns: two (region, equation, node) triples with the same number are the same triple, and every such
number is below the dimension. -/
theorem bulk_numbers_injective (W : Nat) (devs : List (List Region)) (nodes : List Bool) (h : unknowns devs nodes < W)
    (p q : Nat) (r r' : Region) (e e' i i' : Nat)
    (hp : (number W devs nodes).devices.flatten[p]? = some r) (hq : (number W devs nodes).devices.flatten[q]? = some r')
    (he : e < r.neq) (hi : i < r.nnodes) (he' : e' < r'.neq) (hi' : i' < r'.nnodes)
    (heq : eqNumber W r e i = eqNumber W r' e' i') : p = q ∧ e = e' ∧ i = i' := by
  obtain ⟨_, h2, _⟩ := rows_are_range W devs nodes h
  have hnd : (((number W devs nodes).devices.flatten).flatMap (Region.rows W)).Nodup := by
    have := List.nodup_range (n := (number W devs nodes).dim)
    rw [← h2] at this
    exact (List.nodup_append.mp this).1
  generalize (number W devs nodes).devices.flatten = l at hp hq hnd
  rw [List.nodup_flatMap] at hnd
  obtain ⟨n1, n2⟩ := hnd
  have mem : ∀ (r : Region) e i, e < r.neq → i < r.nnodes → eqNumber W r e i ∈ r.rows W := by
    intro r e i he hi
    unfold Region.rows
    simp only [List.mem_flatMap, List.mem_map, List.mem_range]
    exact ⟨e, he, i, hi, rfl⟩
  obtain ⟨hpl, hpr⟩ := List.getElem?_eq_some_iff.mp hp
  obtain ⟨hql, hqr⟩ := List.getElem?_eq_some_iff.mp hq
  have hpq : p = q := by
    apply Classical.byContradiction
    intro hne
    rw [List.pairwise_iff_getElem] at n2
    rcases Nat.lt_or_gt_of_ne hne with hlt | hlt
    · have := n2 p q hpl hql hlt
      rw [hpr, hqr] at this
      exact this (mem r e i he hi) (by rw [heq]; exact mem r' e' i' he' hi')
    · have := n2 q p hql hpl hlt
      rw [hpr, hqr] at this
      exact this (mem r' e' i' he' hi') (by rw [← heq]; exact mem r e i he hi)
  subst hpq
  rw [hpr] at hqr
  subst hqr
  have hr := n1 r (by rw [← hpr]; exact List.getElem_mem hpl)
  unfold Region.rows at hr
  rw [List.nodup_flatMap] at hr
  obtain ⟨m1, m2⟩ := hr
  have hee : e = e' := by
    apply Classical.byContradiction
    intro hne
    rw [List.pairwise_iff_getElem] at m2
    rcases Nat.lt_or_gt_of_ne hne with hlt | hlt
    · have := m2 e e' (by simpa using he) (by simpa using he') hlt
      simp only [List.getElem_range, Function.onFun] at this
      exact this (List.mem_map.mpr ⟨i, List.mem_range.mpr hi, rfl⟩)
        (List.mem_map.mpr ⟨i', List.mem_range.mpr hi', heq.symm⟩)
    · have := m2 e' e (by simpa using he') (by simpa using he) hlt
      simp only [List.getElem_range, Function.onFun] at this
      exact this (List.mem_map.mpr ⟨i', List.mem_range.mpr hi', rfl⟩)
        (List.mem_map.mpr ⟨i, List.mem_range.mpr hi, heq⟩)
  subst hee
  have hmi := m1 e (List.mem_range.mpr he)
  refine ⟨rfl, rfl, ?_⟩
  exact List.inj_on_of_nodup_map hmi (List.mem_range.mpr hi) (List.mem_range.mpr hi') heq

/-- C19: every number used by a region or a circuit node lies below the dimension of the matrix. -/
theorem numbers_in_range (W : Nat) (devs : List (List Region)) (nodes : List Bool) (h : unknowns devs nodes < W) :
    (∀ r ∈ (number W devs nodes).devices.flatten, ∀ e i, e < r.neq → i < r.nnodes →
      eqNumber W r e i < (number W devs nodes).dim) ∧
    ∀ p ∈ nodes.zip (number W devs nodes).circuit, p.1 = false → p.2 < (number W devs nodes).dim := by
  obtain ⟨_, h2, _⟩ := rows_are_range W devs nodes h
  constructor
  · intro r hr e i he hi
    rw [← List.mem_range, ← h2]
    unfold Result.rows
    apply List.mem_append_left
    simp only [List.mem_flatMap]
    refine ⟨r, hr, ?_⟩
    unfold Region.rows
    simp only [List.mem_flatMap, List.mem_map, List.mem_range]
    exact ⟨e, he, i, hi, rfl⟩
  · intro p hp hg
    rw [← List.mem_range, ← h2]
    unfold Result.rows
    apply List.mem_append_right
    exact List.mem_map.mpr ⟨p, List.mem_filter.mpr ⟨hp, by rw [hg]; rfl⟩, rfl⟩

/-! a concrete case: two devices (the first has a region without equations and a region without nodes), circuit with ground -/
def sample : List (List Region) := [[⟨2, 3, 77⟩, ⟨0, 5, 88⟩, ⟨3, 0, 5⟩], [⟨1, 2, 0⟩]]
example : unknowns sample [true, false, false] < 1000 := by decide
example : (number 1000 sample [true, false, false]).dim = 10 := by decide
example : (number 1000 sample [true, false, false]).circuit = [999, 8, 9] := by decide
example : ((number 1000 sample [true, false, false]).devices.flatten).flatMap (Region.rows 1000) = [0, 1, 2, 3, 4, 5, 6, 7] := by
  decide
/-- a device whose only equations live on an empty region at base 0: the "no equations" value is returned -/
example : (calcDevice 1000 0 [⟨3, 0, 5⟩]).2 = 999 := by decide

end Verif.Numbering
