import Verif.SmallSignal.AC

/-! # C61: noise (impedance field) analysis -/

namespace Verif.SmallSignal
open Verif.Assembly

noncomputable section

/-- `X` is the response to a source that is added to the equations: `J X + jω C X = s`, `jω = 2πif`. -/
def Response (ld : Load) (w : World) (f : ℝ) (s X : Nat → ℂ) : Prop :=
  ∀ r < ld.N, staticRow ld w X r + 2 * Real.pi * f * Complex.I * dynamicRow ld w X r = s r

/-- a unit source in the bulk equation with number `o`: it goes through the same row operator as the equation itself -/
def bulkSource (ld : Load) (o : Nat) : Nat → ℂ := permRow ld.perm ld.N fun k => if k = o then 1 else 0

/-- a unit source in row `o` of the system (a current into a circuit node) -/
def rowSource (o : Nat) : Nat → ℂ := fun r => if r = o then 1 else 0

/-- what a region shows after the noise analysis: for every equation and node whose row is not copied by an interface, the response
of the output (unknown number `o`) to a unit source in that equation at that node; every other model is as before. -/
def ShowsNoiseRegion (ld : Load) (w : World) (f : ℝ) (out : String) (o : Nat) (r r' : Newton.Region) : Prop :=
  r'.numNodes = r.numNodes ∧ r'.base = r.base ∧ r'.eqs = r.eqs ∧ r'.vars = r.vars ∧
  (∀ e ∈ r.eqs, ∃ re im : Nat → ℝ, r'.models (out ++ "_" ++ e.name ++ "_real") = some (.solution re) ∧
    r'.models (out ++ "_" ++ e.name ++ "_imag") = some (.solution im) ∧
    ∀ i < r.numNodes, r.base + e.index * r.numNodes + i < ld.N →
      (ld.perm (r.base + e.index * r.numNodes + i)).keep = false →
      ∀ X, Response ld w f (bulkSource ld (r.base + e.index * r.numNodes + i)) X → X o = ⟨re i, im i⟩) ∧
  (∀ x, (∀ e ∈ r.eqs, x ≠ out ++ "_" ++ e.name ++ "_real" ∧ x ≠ out ++ "_" ++ e.name ++ "_imag") →
    r'.models x = r.models x)

/-! ### storage -/

theorem noise_real_inj {p a b : String} (h : p ++ "_" ++ a ++ "_real" = p ++ "_" ++ b ++ "_real") : a = b := by
  have := congrArg String.toList h
  simp only [String.toList_append] at this
  exact String.ext (List.append_cancel_left (List.append_cancel_right this))
theorem noise_imag_inj {p a b : String} (h : p ++ "_" ++ a ++ "_imag" = p ++ "_" ++ b ++ "_imag") : a = b := by
  have := congrArg String.toList h
  simp only [String.toList_append] at this
  exact String.ext (List.append_cancel_left (List.append_cancel_right this))
theorem noise_real_ne_imag (a b : String) : a ++ "_real" ≠ b ++ "_imag" := by
  intro h
  have h1 := congrArg String.toList h
  simp only [String.toList_append] at h1
  have h2 := (List.append_inj' h1 (by decide)).2
  exact absurd h2 (by decide)

theorem noiseEqs_frame (r : Newton.Region) (out : String) (p : Nat → PermEntry) (Y : Nat → ℂ) (es : List Newton.Eqn)
    (ms : Newton.Models) (x : String)
    (hx : ∀ e ∈ es, x ≠ out ++ "_" ++ e.name ++ "_real" ∧ x ≠ out ++ "_" ++ e.name ++ "_imag") :
    noiseEqs r out p Y es ms x = ms x := by
  induction es generalizing ms with
  | nil => rfl
  | cons e es ih =>
    have he := hx e (by simp)
    rw [noiseEqs, ih _ fun a ha => hx a (by simp [ha]), set_other _ _ _ _ he.2, set_other _ _ _ _ he.1]

theorem noiseEqs_shows (r : Newton.Region) (out : String) (p : Nat → PermEntry) (Y : Nat → ℂ) (es : List Newton.Eqn)
    (hnd : (es.map (·.name)).Nodup) (ms : Newton.Models) (e : Newton.Eqn) (he : e ∈ es) :
    noiseEqs r out p Y es ms (out ++ "_" ++ e.name ++ "_real") =
      some (.solution fun i => (noiseValue p Y (eqRow r e i)).re) ∧
    noiseEqs r out p Y es ms (out ++ "_" ++ e.name ++ "_imag") =
      some (.solution fun i => (noiseValue p Y (eqRow r e i)).im) := by
  induction es generalizing ms with
  | nil => simp at he
  | cons a es ih =>
    rw [List.map_cons, List.nodup_cons] at hnd
    rcases List.mem_cons.1 he with rfl | he
    · have hne : ∀ b ∈ es, e.name ≠ b.name := fun b hb hv => hnd.1 (List.mem_map.2 ⟨b, hb, hv.symm⟩)
      rw [noiseEqs, noiseEqs_frame, noiseEqs_frame]
      · refine ⟨?_, set_self _ _ _⟩
        rw [set_other _ _ _ _ (noise_real_ne_imag _ _), set_self]
      · intro b hb
        exact ⟨(noise_real_ne_imag _ _).symm, fun hh => hne b hb (noise_imag_inj hh)⟩
      · intro b hb
        exact ⟨fun hh => hne b hb (noise_real_inj hh), noise_real_ne_imag _ _⟩
    · exact ih hnd.2 _ he

/-! ### the adjoint identity -/

/-- If `Y` solves the transposed system with a unit right hand side in row `o`, then the component `o` of the response to any source
`s` is the sum of the components of `Y` weighted with the source. -/
theorem adjoint (n o : Nat) (ho : o < n) (A : Nat → Nat → ℂ) (Y X s : Nat → ℂ)
    (hY : ∀ c < n, ∑ r ∈ Finset.range n, A r c * Y r = if c = o then 1 else 0)
    (hX : ∀ r < n, ∑ c ∈ Finset.range n, A r c * X c = s r) :
    X o = ∑ r ∈ Finset.range n, Y r * s r := by
  calc X o = ∑ c ∈ Finset.range n, (if c = o then 1 else 0) * X c := by
        simp [ho]
    _ = ∑ c ∈ Finset.range n, (∑ r ∈ Finset.range n, A r c * Y r) * X c :=
        Finset.sum_congr rfl fun c hc => by rw [hY c (Finset.mem_range.1 hc)]
    _ = ∑ r ∈ Finset.range n, Y r * ∑ c ∈ Finset.range n, A r c * X c := by
        simp only [Finset.sum_mul, Finset.mul_sum]
        rw [Finset.sum_comm]
        exact Finset.sum_congr rfl fun r _ => Finset.sum_congr rfl fun c _ => by ring
    _ = ∑ r ∈ Finset.range n, Y r * s r :=
        Finset.sum_congr rfl fun r hr => by rw [hX r (Finset.mem_range.1 hr)]

theorem bulkSource_eq (ld : Load) (o : Nat) (ho : o < ld.N) (r : Nat) : bulkSource ld o r = permCoef ld.perm r o := by
  unfold bulkSource permRow
  simp only [mul_ite, mul_one, mul_zero]
  have : ((List.range ld.N).map fun k => if k = o then (permCoef ld.perm r k : ℂ) else 0).sum =
      ∑ k ∈ Finset.range ld.N, if k = o then (permCoef ld.perm r k : ℂ) else 0 := by
    simp only [Finset.sum, Finset.range_val, Multiset.range, Multiset.map_coe, Multiset.sum_coe]
  rw [this, Finset.sum_ite_eq' , if_pos (Finset.mem_range.2 ho)]

/-- the sum over the rows in which a unit source in bulk equation `o` appears -/
theorem sum_bulkSource (ld : Load) (hp : ∀ i < ld.N, ∀ r, (ld.perm i).row = some r → r < ld.N) (o : Nat) (ho : o < ld.N)
    (Y : Nat → ℂ) :
    ∑ r ∈ Finset.range ld.N, Y r * bulkSource ld o r =
      noiseValue ld.perm Y o + if (ld.perm o).keep = true ∧ (ld.perm o).row.isSome then Y o else 0 := by
  simp only [bulkSource_eq ld o ho, noiseValue, permCoef]
  cases h : (ld.perm o).row with
  | none => simp
  | some row =>
    have hr := hp o ho row h
    dsimp only
    simp only [mul_add, Finset.sum_add_distrib]
    congr 1
    · simp [mul_ite, hr]
    · by_cases hk : (ld.perm o).keep = true
      · simp [hk, mul_ite, ho]
      · simp [hk]

/-- the numbers of the circuit nodes are equations of the system (C19, C20) -/
def NodesIn (ld : Load) (w : World) : Prop := ∀ c, w.circuit = some c → ∀ n i, (n, some i) ∈ c.nodes → c.base + i < ld.N

/-- the names of the equations of a region are distinct (they are the keys of a map) -/
def EquationNamesDistinct (w : World) : Prop := ∀ d ∈ w.devices, ∀ r ∈ d, (r.eqs.map (·.name)).Nodup

theorem outputEqn_mem {c : Circ} {name : String} {o : Nat} (h : outputEqn c name = some o) :
    ∃ i, (name, some i) ∈ c.nodes ∧ o = c.base + i := by
  unfold outputEqn at h
  split at h
  · rename_i n i hf
    have h1 := List.mem_of_find?_eq_some hf
    have h2 := List.find?_some hf
    simp only [Option.some.injEq] at h
    have : n = name := by simpa using h2
    subst this
    exact ⟨i, h1, by omega⟩
  · simp at h

/-- **C61 (partial)** Noise analysis.  For every load, state, frequency and circuit node `out` other than ground: nothing outside of
the arrays is accessed; if success is reported, the values that can be read afterwards for an equation and a node — in
`<out>_<equation>_real`, `_imag` — are the response of the output to a unit source in this equation at this node, and the circuit
solutions `noise_<out>_real`, `_imag` are its response to a unit current into the circuit nodes.  Missing: the nodes of a hybrid
interface, whose equation is also copied (`noise_keep_counterexample`). -/
theorem noise_analysis_partial (B : Backend) (hB : B.Correct) (ld : Load) (f : ℝ) (w : World) (hb : Bounded ld w)
    (hn : NodesIn ld w) (hu : EquationNamesDistinct w) (c : Circ) (hc : w.circuit = some c) (out : String) (i : Nat)
    (hout : outputEqn c out = some (c.base + i)) :
    ∃ w' ok, noiseSolve B ld out f w = some (w', ok) ∧
      (ok = true →
        List.Forall₂ (List.Forall₂ (ShowsNoiseRegion ld w f out (c.base + i))) w.devices w'.devices ∧
        ∃ c' Y, w'.circuit = some c' ∧ ShowsCircuit ("noise_" ++ out ++ "_real") ("noise_" ++ out ++ "_imag") Y c c' ∧
          ∀ n k, (n, some k) ∈ c.nodes → ∀ X, Response ld w f (rowSource (c.base + k)) X → X (c.base + i) = Y (c.base + k)) ∧
      (ok = false → w'.devices = w.devices) := by
  set w1 : World := { w with circuit := some (noiseInit out c) } with hw1
  have hS : circStatic w1 = circStatic w := by
    simp only [circStatic, hw1, hc, noiseInit, initSol_getD]
  have hD : circDynamic w1 = circDynamic w := by
    simp only [circDynamic, hw1, hc, noiseInit, initSol_getD]
  have hBs : circBase w1 = circBase w := by simp only [circBase, hw1, hc, noiseInit]
  have hb1 : Bounded ld w1 := ⟨hb.static, hb.dynamic, hb.customS, hb.customD, by rw [hBs, hS]; exact hb.circS,
    by rw [hBs, hD]; exact hb.circD, hb.perm⟩
  have hoN : c.base + i < ld.N := by
    obtain ⟨k, hk, e⟩ := outputEqn_mem hout
    rw [e]; exact hn c hc _ _ hk
  obtain ⟨m, e1, hrep⟩ := ac_matrix ld f w1 hb1 B.crm
  unfold noiseSolve
  simp only [hc, hout]
  simp only [← hw1, e1]
  cases hs : B.solve true ld.N m.ap m.ai (Matrix.getComplex Complex.mk m) (Function.update (fun _ => 0) (c.base + i) 1) with
  | none => exact ⟨_, _, rfl, by simp, fun _ => rfl⟩
  | some Y =>
    have hY := (hB ld.N m.ap m.ai _ _ _ Y hrep).2 hs
    have hY' : ∀ k < ld.N, ∑ r ∈ Finset.range ld.N, acCell ld f w1 r k * Y r = if k = c.base + i then 1 else 0 := by
      intro k hk
      rw [hY k hk, Function.update_apply]
    have hresp : ∀ s X, Response ld w f s X → X (c.base + i) = ∑ r ∈ Finset.range ld.N, Y r * s r := by
      intro s X hX
      refine adjoint ld.N _ hoN (acCell ld f w1) Y X s hY' ?_
      intro r hr
      rw [acCell_row f hb1, staticRow, dynamicRow, hS, hD, hBs]
      exact hX r hr
    obtain ⟨c', e3, h3⟩ := acCircuit_spec ("noise_" ++ out ++ "_real") ("noise_" ++ out ++ "_imag")
      (noise_real_ne_imag _ _) Y c _ rfl
    have e4 : acCircuit ("noise_" ++ out ++ "_real") ("noise_" ++ out ++ "_imag") Y (noiseInit out c) = some c' := e3
    simp only [e4]
    refine ⟨_, _, rfl, fun _ => ⟨?_, c', Y, rfl, h3, ?_⟩, by simp⟩
    · simp only [noiseDevices]
      rw [List.forall₂_map_right_iff, List.forall₂_same]
      intro d hd
      rw [List.forall₂_map_right_iff, List.forall₂_same]
      intro r hr
      refine ⟨rfl, rfl, rfl, rfl, ?_, fun x hx => noiseEqs_frame r out ld.perm Y _ _ x hx⟩
      intro e he
      obtain ⟨a, b⟩ := noiseEqs_shows r out ld.perm Y r.eqs (hu d hd r hr) r.models e he
      refine ⟨_, _, a, b, ?_⟩
      intro k hk hkN hkeep X hX
      rw [hresp _ X hX, sum_bulkSource ld hb.perm _ hkN]
      have hf : (ld.perm (r.base + e.index * r.numNodes + k)).keep = false := hkeep
      simp only [hf, Bool.false_eq_true, false_and, if_false, add_zero]
      rfl
    · intro n k hk X hX
      rw [hresp _ X hX]
      simp only [rowSource, mul_ite, mul_one, mul_zero]
      rw [Finset.sum_ite_eq', if_pos (Finset.mem_range.2 (hn c hc n k hk))]

/-- **C61, refused outputs**: without a circuit, and for an output that is ground or does not exist, the analysis reports failure and
changes nothing. -/
theorem noise_refused (B : Backend) (ld : Load) (f : ℝ) (w : World) (out : String)
    (h : ∀ c, w.circuit = some c → ∀ i, (out, some i) ∉ c.nodes) : noiseSolve B ld out f w = some (w, false) := by
  unfold noiseSolve
  cases hc : w.circuit with
  | none => rfl
  | some c =>
    cases ho : outputEqn c out with
    | none => simp only [ho]
    | some o =>
      obtain ⟨i, hi, -⟩ := outputEqn_mem ho
      exact absurd hi (h c hc i)

end
end Verif.SmallSignal
