import Verif.Vec.Model
/-!
# C100: the vector of a model on the edges of the elements
-/
namespace Verif.Vec

open Verif.Geom Verif.Fields

/-! ### The loop -/

theorem fill_aux (b : Nat) (g : Nat → ℝ) (a : List ℝ) : ∀ k,
    ((List.range k).foldl (fun a j => a.set (b + j) (g j)) a).length = a.length ∧
    ∀ i, ((List.range k).foldl (fun a j => a.set (b + j) (g j)) a)[i]? =
      if b ≤ i ∧ i < b + k ∧ i < a.length then some (g (i - b)) else a[i]? := by
  intro k
  induction k with
  | zero =>
    refine ⟨rfl, fun i => ?_⟩
    rw [if_neg (by omega)]
    rfl
  | succ k ih =>
    obtain ⟨l, h⟩ := ih
    rw [List.range_succ, List.foldl_append]
    simp only [List.foldl_cons, List.foldl_nil]
    refine ⟨by rw [List.length_set, l], fun i => ?_⟩
    rw [List.getElem?_set, l]
    by_cases e : b + k = i
    · rw [if_pos e]
      by_cases hl : i < a.length
      · rw [if_pos (by omega), if_pos (by omega), ← e, Nat.add_sub_cancel_left]
      · rw [if_neg (by omega), if_neg (by omega), List.getElem?_eq_none (by omega)]
    · rw [if_neg e, h i]
      by_cases c : b ≤ i ∧ i < b + k ∧ i < a.length
      · rw [if_pos c, if_pos (by omega)]
      · rw [if_neg c, if_neg (by omega)]

theorem fill_length (k t : Nat) (f : V3 → ℝ) (r : List V3) (a : List ℝ) : (fill k t f r a).length = a.length :=
  (fill_aux (k * t) (fun j => f (r.getD j ⟨0, 0, 0⟩)) a k).1

theorem fill_get {k t : Nat} {f : V3 → ℝ} {r : List V3} {a : List ℝ} {n : Nat} (ha : a.length = k * n)
    {t' j : Nat} (ht : t' < n) (hj : j < k) :
    (fill k t f r a)[k * t' + j]? = if t' = t then some (f (r.getD j ⟨0, 0, 0⟩)) else a[k * t' + j]? := by
  have h := (fill_aux (k * t) (fun j => f (r.getD j ⟨0, 0, 0⟩)) a k).2 (k * t' + j)
  rw [fill, h]
  have hlt : k * t' + j < k * n := by
    calc k * t' + j < k * t' + k := by omega
      _ = k * (t' + 1) := by ring
      _ ≤ k * n := Nat.mul_le_mul_left k ht
  by_cases e : t' = t
  · subst e
    rw [if_pos (by omega), if_pos rfl, Nat.add_sub_cancel_left]
  · rw [if_neg e, if_neg]
    rintro ⟨h1, h2, -⟩
    rcases Nat.lt_or_gt_of_ne e with q | q
    · have : k * (t' + 1) ≤ k * t := Nat.mul_le_mul_left k q
      have : k * (t' + 1) = k * t' + k := by ring
      omega
    · have : k * (t + 1) ≤ k * t' := Nat.mul_le_mul_left k q
      have : k * (t + 1) = k * t + k := by ring
      omega

/-- The entry of element `t` and edge `j` is the component of the vector there. -/
theorem loop_spec {k n : Nat} {field : Nat → Option (List V3)} {R : Nat → List V3}
    (h : ∀ t < n, field t = some (R t)) :
    ∃ X Y Z, loop k n field = some (X, Y, Z) ∧ X.length = k * n ∧ Y.length = k * n ∧ Z.length = k * n ∧
      ∀ t < n, ∀ j < k, X[k * t + j]? = some ((R t).getD j ⟨0, 0, 0⟩).x ∧ Y[k * t + j]? = some ((R t).getD j ⟨0, 0, 0⟩).y ∧
        Z[k * t + j]? = some ((R t).getD j ⟨0, 0, 0⟩).z := by
  have key : ∀ n' ≤ n, ∃ X Y Z,
      (List.range n').foldlM (turn k field) (List.replicate (k * n) 0, List.replicate (k * n) 0, List.replicate (k * n) 0)
        = some (X, Y, Z) ∧ X.length = k * n ∧ Y.length = k * n ∧ Z.length = k * n ∧
      ∀ t < n', ∀ j < k, X[k * t + j]? = some ((R t).getD j ⟨0, 0, 0⟩).x ∧ Y[k * t + j]? = some ((R t).getD j ⟨0, 0, 0⟩).y ∧
        Z[k * t + j]? = some ((R t).getD j ⟨0, 0, 0⟩).z := by
    intro n'
    induction n' with
    | zero => exact fun _ => ⟨_, _, _, rfl, by simp, by simp, by simp, fun t ht => absurd ht (by omega)⟩
    | succ n' ih =>
      intro hn
      obtain ⟨X, Y, Z, e, lx, ly, lz, hv⟩ := ih (by omega)
      refine ⟨fill k n' V3.x (R n') X, fill k n' V3.y (R n') Y, fill k n' V3.z (R n') Z, ?_, ?_, ?_, ?_, ?_⟩
      · rw [List.range_succ, List.foldlM_append, e]
        simp [turn, h n' (by omega)]
      · rw [fill_length, lx]
      · rw [fill_length, ly]
      · rw [fill_length, lz]
      · intro t ht j hj
        rw [fill_get lx (by omega) hj, fill_get ly (by omega) hj, fill_get lz (by omega) hj]
        by_cases et : t = n'
        · subst et
          simp only [if_true, and_self]
        · simp only [if_neg et]
          exact hv t (by omega) j hj
  exact key n le_rfl

theorem getD_of {r : List V3} {j : Nat} {w : V3} (h : r[j]? = some w) : r.getD j ⟨0, 0, 0⟩ = w := by
  rw [List.getD_eq_getElem?_getD, h]; rfl

/-! ### Triangles -/

variable {m : Mesh} {pos : Pos}

theorem vector2_get (h : m.Good) (hc : m.Complete) (hp : ∀ t < m.tris.length, PlaneTri m pos t)
    {couple : Nat → Nat → ℝ} (hw : ∀ t < m.tris.length, GoodWeights (couple t)) (ev : Nat → ℝ) (s : Nat → Pairs) :
    ∃ (X Y : List ℝ) (R : Nat → List V3), vector2 m pos couple ev s = some (X, Y) ∧ X.length = 3 * m.tris.length ∧ Y.length = 3 * m.tris.length ∧
      ∀ t < m.tris.length, elementField m pos t (couple t) (fun j => ev (3 * t + j)) (s t) = some (R t) ∧
        ∀ j < 3, X[3 * t + j]? = some ((R t).getD j ⟨0, 0, 0⟩).x ∧ Y[3 * t + j]? = some ((R t).getD j ⟨0, 0, 0⟩).y := by
  have hR : ∀ t < m.tris.length, elementField m pos t (couple t) (fun j => ev (3 * t + j)) (s t) =
      some ((elementField m pos t (couple t) (fun j => ev (3 * t + j)) (s t)).getD []) := by
    intro t ht
    obtain ⟨r, hr, -⟩ := elementField_spec h hc ht (hp t ht) (hw t ht) (fun j => ev (3 * t + j)) (s t)
    rw [hr]; rfl
  obtain ⟨X, Y, Z, e, lx, ly, -, hv⟩ := loop_spec (k := 3) hR
  refine ⟨X, Y, _, ?_, lx, ly, fun t ht => ⟨hR t ht, fun j hj => ⟨(hv t ht j hj).1, (hv t ht j hj).2.1⟩⟩⟩
  rw [vector2, e]; rfl

/-- On every edge `j` of every triangle `t` there is a vector at each end of the edge that has the given values along both
edges of the triangle there; `_x` and `_y` are the mean of the two, with the weights of the other edge at each end. Along the
edge it has the value of the edge. -/
theorem triangle_vectors (h : m.Good) (hc : m.Complete) (hp : ∀ t < m.tris.length, PlaneTri m pos t)
    {couple : Nat → Nat → ℝ} (hw : ∀ t < m.tris.length, GoodWeights (couple t)) (ev : Nat → ℝ) (s : Nat → Pairs) :
    ∃ X Y, vector2 m pos couple ev s = some (X, Y) ∧ X.length = 3 * m.tris.length ∧ Y.length = 3 * m.tris.length ∧
      ∀ t < m.tris.length, ∀ j < 3, ∃ x y, X[3 * t + j]? = some x ∧ Y[3 * t + j]? = some y ∧
        dot2 (triUnit m pos t j) ⟨x, y, 0⟩ = ev (3 * t + j) ∧
        ∃ w : Nat → V3,
          (∀ k < 2, ∀ i < 3, (∃ k' < 2, edgeNode m (triangleEdge m t i) k' = edgeNode m (triangleEdge m t j) k) →
            dot2 (triUnit m pos t i) (w k) = ev (3 * t + i)) ∧
          ∀ j0 < 3, ∀ j1 < 3, j0 ≠ j → j1 ≠ j →
            (∃ k < 2, edgeNode m (triangleEdge m t j0) k = edgeNode m (triangleEdge m t j) 0) →
            (∃ k < 2, edgeNode m (triangleEdge m t j1) k = edgeNode m (triangleEdge m t j) 1) →
            x * (couple t j0 + couple t j1) = (w 0).x * couple t j0 + (w 1).x * couple t j1 ∧
            y * (couple t j0 + couple t j1) = (w 0).y * couple t j0 + (w 1).y * couple t j1 := by
  obtain ⟨X, Y, R, e, lx, ly, hv⟩ := vector2_get h hc hp hw ev s
  refine ⟨X, Y, e, lx, ly, fun t ht j hj => ?_⟩
  obtain ⟨hR, hget⟩ := hv t ht
  refine ⟨_, _, (hget j hj).1, (hget j hj).2, ?_, ?_⟩
  · obtain ⟨r, hr, -, hs⟩ := elementField_spec h hc ht (hp t ht) (hw t ht) (fun j => ev (3 * t + j)) (s t)
    rw [hR, Option.some.injEq] at hr
    obtain ⟨w, hw1, -, hw3⟩ := hs j hj
    rw [hr, getD_of hw1]
    exact hw3
  · obtain ⟨r, r0, r1, hr, hpr, hwt⟩ :=
      elementField_weights h hc ht (hp t ht) (hw t ht) (fun j => ev (3 * t + j)) (s t) (s t)
    rw [hR, Option.some.injEq] at hr
    obtain ⟨q0, q1, hq, -, -, hend⟩ := elementPairs_spec h hc ht (hp t ht) (couple t) (fun j => ev (3 * t + j)) (s t)
    rw [hpr, Option.some.injEq, Prod.mk.injEq] at hq
    obtain ⟨rfl, rfl⟩ := hq
    refine ⟨fun k => (if k = 0 then r0 else r1).getD j ⟨0, 0, 0⟩, fun k hk i hi hnode => ?_, fun j0 h0 j1 h1 n0 n1 hn0 hn1 => ?_⟩
    · obtain ⟨w, hw1, -, hw3⟩ := hend j hj k hk
      dsimp only
      rw [getD_of hw1]
      exact hw3 i hi hnode
    · obtain ⟨w, x, y, e1, e2, e3, e4⟩ := hwt j hj j0 h0 j1 h1 n0 n1 hn0 hn1
      simp only [if_true, one_ne_zero, if_false]
      rw [hr, getD_of e1, getD_of e2, getD_of e3]
      exact ⟨congrArg V3.x e4, congrArg V3.y e4⟩

/-- **A constant vector is found exactly**, on each triangle by itself. -/
theorem triangle_constant (h : m.Good) (hc : m.Complete) (hp : ∀ t < m.tris.length, PlaneTri m pos t)
    {couple : Nat → Nat → ℝ} (hw : ∀ t < m.tris.length, GoodWeights (couple t)) (ev : Nat → ℝ) (s : Nat → Pairs) :
    ∃ X Y, vector2 m pos couple ev s = some (X, Y) ∧
      ∀ t < m.tris.length, ∀ E : V3, (∀ j < 3, ev (3 * t + j) = dot2 (triUnit m pos t j) E) →
        ∀ j < 3, X[3 * t + j]? = some E.x ∧ Y[3 * t + j]? = some E.y := by
  obtain ⟨X, Y, R, e, -, -, hv⟩ := vector2_get h hc hp hw ev s
  refine ⟨X, Y, e, fun t ht E hE j hj => ?_⟩
  obtain ⟨hR, hget⟩ := hv t ht
  have := elementField_constant h hc ht (hp t ht) (hw t ht) (s t) E hE
  rw [hR, Option.some.injEq] at this
  have g : (R t).getD j ⟨0, 0, 0⟩ = ⟨E.x, E.y, 0⟩ := getD_of (by rw [this, List.getElem?_replicate, if_pos hj])
  have := hget j hj
  rw [g] at this
  exact this

/-- The values on a triangle are made of those of the element model on it, and of nothing that was there before. -/
theorem triangle_local (h : m.Good) (hc : m.Complete) (hp : ∀ t < m.tris.length, PlaneTri m pos t)
    {couple couple' : Nat → Nat → ℝ} (hw : ∀ t < m.tris.length, GoodWeights (couple t))
    (hw' : ∀ t < m.tris.length, GoodWeights (couple' t)) (ev ev' : Nat → ℝ) (s s' : Nat → Pairs) :
    ∃ X Y X' Y', vector2 m pos couple ev s = some (X, Y) ∧ vector2 m pos couple' ev' s' = some (X', Y') ∧
      ∀ t < m.tris.length, couple t = couple' t → (∀ j < 3, ev (3 * t + j) = ev' (3 * t + j)) →
        ∀ j < 3, X[3 * t + j]? = X'[3 * t + j]? ∧ Y[3 * t + j]? = Y'[3 * t + j]? := by
  obtain ⟨X, Y, R, e, -, -, hv⟩ := vector2_get h hc hp hw ev s
  obtain ⟨X', Y', R', e', -, -, hv'⟩ := vector2_get h hc hp hw' ev' s'
  refine ⟨X, Y, X', Y', e, e', fun t ht hct hev j hj => ?_⟩
  obtain ⟨hR, hget⟩ := hv t ht
  obtain ⟨hR', hget'⟩ := hv' t ht
  obtain ⟨a, b, c, hT⟩ := triOf h hc ht
  have hr := regular_of_plane hT (hp t ht)
  rw [elementField_eq hT hr (hw t ht), Option.some.injEq] at hR
  rw [elementField_eq hT hr (hw' t ht), Option.some.injEq] at hR'
  have hpv : ∀ i < 3, ∀ i' < 3, pairVec m pos t (fun j => ev (3 * t + j)) i i' = pairVec m pos t (fun j => ev' (3 * t + j)) i i' := by
    intro i hi i' hi'
    simp only [pairVec, hev i hi, hev i' hi']
  have hf : ∀ i, fieldVec m pos t (couple t) (fun j => ev (3 * t + j)) i =
      fieldVec m pos t (couple' t) (fun j => ev' (3 * t + j)) i := by
    intro i
    simp only [fieldVec, endVec, hct, hpv 0 (by omega) 1 (by omega), hpv 0 (by omega) 2 (by omega), hpv 1 (by omega) 2 (by omega)]
  have : R t = R' t := by rw [← hR, ← hR', hf, hf, hf]
  rw [(hget j hj).1, (hget j hj).2, (hget' j hj).1, (hget' j hj).2, this]
  exact ⟨rfl, rfl⟩

/-! ### Tetrahedra -/

theorem vector3_get (h : m.Good) (hc : m.Complete) (hg : ∀ t < m.tets.length, GoodTet m pos t) (ev : Nat → ℝ)
    (s : Nat → Nat → Nat → V3) :
    ∃ (X Y Z : List ℝ) (R : Nat → List V3), vector3 m pos ev s = some (X, Y, Z) ∧ X.length = 6 * m.tets.length ∧ Y.length = 6 * m.tets.length ∧
      Z.length = 6 * m.tets.length ∧
      ∀ t < m.tets.length, elementField3 m pos t (fun j => ev (6 * t + j)) (s t) = some (R t) ∧
        ∀ j < 6, X[6 * t + j]? = some ((R t).getD j ⟨0, 0, 0⟩).x ∧ Y[6 * t + j]? = some ((R t).getD j ⟨0, 0, 0⟩).y ∧
          Z[6 * t + j]? = some ((R t).getD j ⟨0, 0, 0⟩).z := by
  have hR : ∀ t < m.tets.length, elementField3 m pos t (fun j => ev (6 * t + j)) (s t) =
      some ((elementField3 m pos t (fun j => ev (6 * t + j)) (s t)).getD []) := by
    intro t ht
    obtain ⟨r, hr, -⟩ := elementField3_spec h hc ht (hg t ht) (fun j => ev (6 * t + j)) (s t)
    rw [hr]; rfl
  obtain ⟨X, Y, Z, e, lx, ly, lz, hv⟩ := loop_spec (k := 6) hR
  exact ⟨X, Y, Z, _, e, lx, ly, lz, fun t ht => ⟨hR t ht, hv t ht⟩⟩

/-- On every edge of every tetrahedron the vector has the value of the edge along it. -/
theorem tetrahedron_vectors (h : m.Good) (hc : m.Complete) (hg : ∀ t < m.tets.length, GoodTet m pos t) (ev : Nat → ℝ)
    (s : Nat → Nat → Nat → V3) :
    ∃ X Y Z, vector3 m pos ev s = some (X, Y, Z) ∧ X.length = 6 * m.tets.length ∧ Y.length = 6 * m.tets.length ∧
      Z.length = 6 * m.tets.length ∧
      ∀ t < m.tets.length, ∀ j < 6, ∃ x y z, X[6 * t + j]? = some x ∧ Y[6 * t + j]? = some y ∧ Z[6 * t + j]? = some z ∧
        V3.dot (tetUnit m pos t j) ⟨x, y, z⟩ = ev (6 * t + j) := by
  obtain ⟨X, Y, Z, R, e, lx, ly, lz, hv⟩ := vector3_get h hc hg ev s
  refine ⟨X, Y, Z, e, lx, ly, lz, fun t ht j hj => ?_⟩
  obtain ⟨hR, hget⟩ := hv t ht
  refine ⟨_, _, _, (hget j hj).1, (hget j hj).2.1, (hget j hj).2.2, ?_⟩
  obtain ⟨r, hr, -, hs⟩ := elementField3_spec h hc ht (hg t ht) (fun j => ev (6 * t + j)) (s t)
  rw [hR, Option.some.injEq] at hr
  obtain ⟨w, hw1, hw2⟩ := hs j hj
  rw [hr, getD_of hw1]
  exact hw2

/-- A constant vector is found exactly, on each tetrahedron by itself. -/
theorem tetrahedron_constant (h : m.Good) (hc : m.Complete) (hg : ∀ t < m.tets.length, GoodTet m pos t) (ev : Nat → ℝ)
    (s : Nat → Nat → Nat → V3) :
    ∃ X Y Z, vector3 m pos ev s = some (X, Y, Z) ∧
      ∀ t < m.tets.length, ∀ E : V3, (∀ j < 6, ev (6 * t + j) = V3.dot (tetUnit m pos t j) E) →
        ∀ j < 6, X[6 * t + j]? = some E.x ∧ Y[6 * t + j]? = some E.y ∧ Z[6 * t + j]? = some E.z := by
  obtain ⟨X, Y, Z, R, e, -, -, -, hv⟩ := vector3_get h hc hg ev s
  refine ⟨X, Y, Z, e, fun t ht E hE j hj => ?_⟩
  obtain ⟨hR, hget⟩ := hv t ht
  have := elementField3_constant h hc ht (hg t ht) (s t) E hE
  rw [hR, Option.some.injEq] at this
  have g : (R t).getD j ⟨0, 0, 0⟩ = E := getD_of (by rw [this, List.getElem?_replicate, if_pos hj])
  have := hget j hj
  rw [g] at this
  exact this

/-- What was there before does not matter. -/
theorem tetrahedron_scratch (h : m.Good) (hc : m.Complete) (hg : ∀ t < m.tets.length, GoodTet m pos t) (ev : Nat → ℝ)
    (s s' : Nat → Nat → Nat → V3) : vector3 m pos ev s = vector3 m pos ev s' := by
  have : ∀ n ≤ m.tets.length, ∀ a,
      (List.range n).foldlM (turn 6 fun t => elementField3 m pos t (fun j => ev (6 * t + j)) (s t)) a =
      (List.range n).foldlM (turn 6 fun t => elementField3 m pos t (fun j => ev (6 * t + j)) (s' t)) a := by
    intro n
    induction n with
    | zero => exact fun _ _ => rfl
    | succ n ih =>
      intro hn a
      rw [List.range_succ, List.foldlM_append, List.foldlM_append, ih (by omega) a]
      congr 1
      funext b
      simp only [List.foldlM_cons, List.foldlM_nil, turn, elementField3_scratch h hc (show n < m.tets.length by omega) (hg n (by omega)) _ (s n) (s' n)]
  exact this _ le_rfl _

/-! ### The command -/

/-- It is done exactly if the element model is there, in two or three dimensions. -/
theorem command_answer (dim : Nat) (have2 have3 : String → Bool) (name : String) (l : List String) :
    command dim have2 have3 name = some l ↔
      (dim = 2 ∧ have2 name = true ∧ l = [name ++ "_x", name ++ "_y"]) ∨
      (dim = 3 ∧ have3 name = true ∧ l = [name ++ "_x", name ++ "_y", name ++ "_z"]) := by
  unfold command
  by_cases h1 : dim = 1
  · subst h1; simp
  rw [if_neg h1]
  by_cases h2 : dim = 2
  · subst h2
    rw [if_pos rfl]
    cases h : have2 name
    · simp
    · exact ⟨fun e => .inl ⟨rfl, rfl, (Option.some.inj e).symm⟩, fun e => by
        rcases e with ⟨_, _, e⟩ | ⟨e, _⟩
        · rw [e]; rfl
        · exact absurd e (by decide)⟩
  rw [if_neg h2]
  by_cases h3 : dim = 3
  · subst h3
    rw [if_pos rfl]
    cases h : have3 name
    · simp
    · exact ⟨fun e => .inr ⟨rfl, rfl, (Option.some.inj e).symm⟩, fun e => by
        rcases e with ⟨e, _⟩ | ⟨_, _, e⟩
        · exact absurd e (by decide)
        · rw [e]; rfl⟩
  rw [if_neg h3]
  simp [h2, h3]

end Verif.Vec
