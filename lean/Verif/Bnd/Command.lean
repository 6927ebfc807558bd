import Verif.Bnd.Find

/-!
# The commands that make contacts and interfaces
-/

namespace Verif.Bnd
open Verif.Geom

/-! ### `create_contact_from_interface` -/

/-- The device with a new contact; the named interface may have other elements stored. -/
def Dev.Gains (d d' : Dev) (name interface : String) (c : Con) (f f' : Itf) : Prop :=
  d'.dim = d.dim ∧ d'.regions = d.regions ∧ d'.contacts name = some c ∧ (∀ n, n ≠ name → d'.contacts n = d.contacts n) ∧
  d'.interfaces interface = some f' ∧ f.Same f' ∧ ∀ n, n ≠ interface → d'.interfaces n = d.interfaces n

/-- The region of side `b` has the name, and it is not the first that has it unless `b` is the first side. -/
def Itf.SideIs (f : Itf) (region : String) : Bool → Prop
  | false => f.region0 = region
  | true => f.region1 = region ∧ f.region0 ≠ region

theorem put_same {α : Type} (g : String → Option α) (n : String) (a : α) : put g n a n = some a := by simp [put]

theorem put_ne {α : Type} (g : String → Option α) {n k : String} (a : α) (h : k ≠ n) : put g n a k = g k := by simp [put, h]

theorem command_step {d : Dev} {name material region interface : String} {f : Itf} {m m0 m1 : Mesh} {b : Bool}
    (hn : name ≠ "") (hm : material ≠ "") (hr : d.regions region = some m) (hi : d.interfaces interface = some f)
    (h0 : d.regions f.region0 = some m0) (h1 : d.regions f.region1 = some m1)
    (hc : d.contacts name = none) (hb : f.SideIs region b) :
    d.contactFromInterface name material region interface =
      match f.ask m0 m1 b .tris with
      | none => .crash
      | some (f1, ts) =>
        match f1.ask m0 m1 b .edges with
        | none => .crash
        | some (f2, es) => .ok { d with
            interfaces := put d.interfaces interface f2
            contacts := put d.contacts name { region := region, nodes := f.nodes b, material := material, tris := ts, edges := es } } := by
  have hnm : ¬ (name = "" ∨ material = "") := by simp [hn, hm]
  cases b with
  | false =>
    have hb : f.region0 = region := hb
    simp only [Dev.contactFromInterface, if_neg hnm, hr, hi, hc, h0, h1, if_pos hb, Itf.ask]
    cases h2 : f.getTris0 m0 m1 with
    | none => rfl
    | some f1 =>
      simp only [Option.map_some]
      cases h3 : f1.getEdges0 m0 m1 with
      | none => rfl
      | some f2 => simp [Dev.addContact, hc, Itf.nodes]
  | true =>
    obtain ⟨hb1, hb0⟩ := hb
    simp only [Dev.contactFromInterface, if_neg hnm, hr, hi, hc, h0, h1, if_neg hb0, if_pos hb1, Itf.ask]
    cases h2 : f.getTris1 m0 m1 with
    | none => rfl
    | some f1 =>
      simp only [Option.map_some]
      cases h3 : f1.getEdges1 m0 m1 with
      | none => rfl
      | some f2 => simp [Dev.addContact, hc, Itf.nodes]

/-- **A contact from an interface made of nodes**, in one or three dimensions: it is on the region, has the nodes and the boundary of
that side; the rest of the device is as before. -/
theorem contact_from_interface_partial {d : Dev} {name material region interface : String} {f : Itf} {m m0 m1 : Mesh} {b : Bool}
    (hn : name ≠ "") (hm : material ≠ "") (hr : d.regions region = some m) (hi : d.interfaces interface = some f)
    (h0 : d.regions f.region0 = some m0) (h1 : d.regions f.region1 = some m1)
    (hc : d.contacts name = none) (hb : f.SideIs region b) (p0 : Proper m0) (p1 : Proper m1) (hd : m0.dim = m1.dim) (hd2 : m0.dim ≠ 2)
    (hf : f.Fresh m0 m1) :
    ∃ d' c f', d.contactFromInterface name material region interface = .ok d' ∧ d.Gains d' name interface c f f' ∧
      c.region = region ∧ c.material = material ∧ c.nodes = f.nodes b ∧
      IsList c.edges (Boundary m c.nodes .edges) ∧ IsList c.tris (Boundary m c.nodes .tris) := by
  have hmb : side m0 m1 b = m := by
    cases b with
    | false => have hb : f.region0 = region := hb; rw [hb, hr] at h0; cases h0; rfl
    | true => obtain ⟨hb, -⟩ := hb; rw [hb, hr] at h1; cases h1; rfl
  obtain ⟨f1, ts, a1, a2, a3, a4⟩ := Itf.ask_spec p0 p1 hd hf b (q := .tris) (fun h => absurd h hd2)
  obtain ⟨f2, es, b1, b2, b3, b4⟩ := Itf.ask_spec p0 p1 hd (.inr a3) b (q := .edges) (fun h => absurd h hd2)
  refine ⟨{ d with
            interfaces := put d.interfaces interface f2
            contacts := put d.contacts name { region := region, nodes := f.nodes b, material := material, tris := ts, edges := es } },
    { region := region, nodes := f.nodes b, material := material, tris := ts, edges := es }, f2,
    by rw [command_step hn hm hr hi h0 h1 hc hb, a1]; simp only; rw [b1],
    ⟨rfl, rfl, put_same _ _ _, fun n hn => put_ne _ _ hn, put_same _ _ _, a2.trans b2, fun n hn => put_ne _ _ hn⟩, rfl, rfl, rfl, ?_, ?_⟩
  · have := b3 b .edges
    rw [← b4, (a2.trans b2).nodes, hmb] at this; exact this
  · have := a3 b .tris
    rw [← a4, a2.nodes, hmb] at this; exact this

/-- **A contact from an interface of a file** in three dimensions: it has the elements of the interface. -/
theorem contact_from_file {d : Dev} {name material region interface : String} {f : Itf} {m m0 m1 : Mesh} {b : Bool}
    (hn : name ≠ "") (hm : material ≠ "") (hr : d.regions region = some m) (hi : d.interfaces interface = some f)
    (h0 : d.regions f.region0 = some m0) (h1 : d.regions f.region1 = some m1)
    (hc : d.contacts name = none) (hb : f.SideIs region b) (hd : m0.dim ≠ 2) (he : ∀ b q, f.stored b q ≠ []) :
    ∃ d' c, d.contactFromInterface name material region interface = .ok d' ∧ d.Gains d' name interface c f f ∧
      c.region = region ∧ c.material = material ∧ c.nodes = f.nodes b ∧ c.edges = f.stored b .edges ∧ c.tris = f.stored b .tris := by
  have key := interface_kept (m0 := m0) (m1 := m1) (fun b => he b .edges) (.inr fun b => he b .tris) [(b, .tris)]
    (by intro q _ h; exact absurd h hd)
  have key2 := interface_kept (m0 := m0) (m1 := m1) (fun b => he b .edges) (.inr fun b => he b .tris) [(b, .edges)]
    (by intro q _ h; exact absurd h hd)
  have ask1 : f.ask m0 m1 b .tris = some (f, f.stored b .tris) := by
    simp only [Itf.askAll] at key
    cases h : f.ask m0 m1 b .tris with
    | none => simp [h] at key
    | some p => simp [h] at key; obtain ⟨x, y⟩ := p; simp at key; rw [key.1, key.2]
  have ask2 : f.ask m0 m1 b .edges = some (f, f.stored b .edges) := by
    simp only [Itf.askAll] at key2
    cases h : f.ask m0 m1 b .edges with
    | none => simp [h] at key2
    | some p => simp [h] at key2; obtain ⟨x, y⟩ := p; simp at key2; rw [key2.1, key2.2]
  exact ⟨{ d with
            interfaces := put d.interfaces interface f
            contacts := put d.contacts name
              { region := region, nodes := f.nodes b, material := material, tris := f.stored b .tris, edges := f.stored b .edges } },
    { region := region, nodes := f.nodes b, material := material, tris := f.stored b .tris, edges := f.stored b .edges },
    by rw [command_step hn hm hr hi h0 h1 hc hb, ask1]; simp only; rw [ask2],
    ⟨rfl, rfl, put_same _ _ _, fun n hn => put_ne _ _ hn, put_same _ _ _, ⟨rfl, rfl, rfl, rfl⟩, fun n hn => put_ne _ _ hn⟩,
    rfl, rfl, rfl, rfl, rfl⟩

/-- **In two dimensions the command ends the program** for every interface: it asks for triangles, and the triangles of the regions are
searched in a table that is not there. -/
theorem contact_from_interface_crashes {d : Dev} {name material region interface : String} {f : Itf} {m m0 m1 : Mesh} {b : Bool}
    (hn : name ≠ "") (hm : material ≠ "") (hr : d.regions region = some m) (hi : d.interfaces interface = some f)
    (h0 : d.regions f.region0 = some m0) (h1 : d.regions f.region1 = some m1)
    (hc : d.contacts name = none) (hb : f.SideIs region b) (p0 : Proper m0) (hd2 : m0.dim = 2) (ht : ∀ b, f.stored b .tris = []) :
    d.contactFromInterface name material region interface = .crash := by
  have hcr : f.findTris m0 m1 = none := by
    rcases p0.dims with ⟨h, -⟩ | ⟨-, h1, h2⟩ | ⟨h, -⟩
    · omega
    · unfold Itf.findTris
      rw [findTriangles_crash h1 h2]
      split <;> rfl
    · omega
  have : f.ask m0 m1 b .tris = none := by
    cases b with
    | false => have := ht false; simp only [Itf.stored] at this; simp [Itf.ask, Itf.getTris0, this, hcr]
    | true => have := ht true; simp only [Itf.stored] at this; simp [Itf.ask, Itf.getTris1, this, hcr]
  rw [command_step hn hm hr hi h0 h1 hc hb, this]

/-- **When the command refuses**: an empty name, no such region or interface, a contact of that name, or a region that is on neither
side. (The regions of an interface are regions of its device.) -/
theorem contact_from_interface_error {d : Dev} {name material region interface : String}
    (hreg : ∀ n f, d.interfaces n = some f → (∃ m, d.regions f.region0 = some m) ∧ ∃ m, d.regions f.region1 = some m) :
    d.contactFromInterface name material region interface = .error ↔
      name = "" ∨ material = "" ∨ d.regions region = none ∨ d.interfaces interface = none ∨ d.contacts name ≠ none ∨
      ∃ f, d.interfaces interface = some f ∧ f.region0 ≠ region ∧ f.region1 ≠ region := by
  constructor
  · intro h
    by_contra hc
    push Not at hc
    obtain ⟨h1, h2, h3, h4, h5, h6⟩ := hc
    obtain ⟨m, hm⟩ := Option.ne_none_iff_exists'.1 h3
    obtain ⟨f, hf⟩ := Option.ne_none_iff_exists'.1 h4
    obtain ⟨⟨m0, hm0⟩, m1, hm1⟩ := hreg _ _ hf
    have hb : ∃ b, f.SideIs region b := by
      by_cases hb : f.region0 = region
      · exact ⟨false, hb⟩
      · exact ⟨true, h6 f hf hb, hb⟩
    obtain ⟨b, hb⟩ := hb
    rw [command_step h1 h2 hm hf hm0 hm1 h5 hb] at h
    cases ha : f.ask m0 m1 b .tris with
    | none => rw [ha] at h; cases h
    | some p =>
      obtain ⟨f1, ts⟩ := p
      rw [ha] at h; simp only at h
      cases ha2 : f1.ask m0 m1 b .edges with
      | none => rw [ha2] at h; cases h
      | some p => rw [ha2] at h; cases h
  · intro h
    unfold Dev.contactFromInterface
    by_cases h1 : name = "" ∨ material = ""
    · rw [if_pos h1]
    rw [if_neg h1]
    push Not at h1
    cases h3 : d.regions region with
    | none => simp
    | some m =>
      cases h4 : d.interfaces interface with
      | none => simp
      | some f =>
        cases h5 : d.contacts name with
        | some c => simp
        | none =>
          obtain ⟨⟨m0, hm0⟩, m1, hm1⟩ := hreg _ _ h4
          simp [h1.1, h1.2, h3, h4, h5] at h
          simp [hm0, hm1, h.1, h.2]

/-! ### `create_interface_from_nodes` -/

/-- The arguments of the command are right. -/
def NodesOK (d : Dev) (name region0 region1 : String) (nodes0 nodes1 : List ℕ) : Prop :=
  name ≠ "" ∧ nodes0 ≠ [] ∧ nodes0.length = nodes1.length ∧
  ∃ m0 m1, d.regions region0 = some m0 ∧ d.regions region1 = some m1 ∧ (∀ v ∈ nodes0, v < m0.n) ∧ ∀ v ∈ nodes1, v < m1.n

/-- **Refusing**: the command reports an error exactly for wrong arguments. -/
theorem interface_from_nodes_error {d : Dev} {name region0 region1 : String} {nodes0 nodes1 : List ℕ} :
    d.interfaceFromNodes name region0 region1 nodes0 nodes1 = .error ↔ ¬ NodesOK d name region0 region1 nodes0 nodes1 := by
  unfold Dev.interfaceFromNodes NodesOK
  by_cases hn : name = ""
  · simp [hn]
  cases h0 : d.regions region0 with
  | none => simp [hn]
  | some m0 =>
    cases h1 : d.regions region1 with
    | none => simp [hn]
    | some m1 =>
      simp only [if_neg hn]
      by_cases hl : (nodes0 = [] ∨ nodes1 = []) ∨ nodes0.length ≠ nodes1.length
      · rw [if_pos hl]
        simp only [true_iff]
        rintro ⟨-, ha, hb, -⟩
        rcases hl with (hl | hl) | hl
        · exact ha hl
        · subst hl; exact ha (List.length_eq_zero_iff.1 hb)
        · exact hl hb
      · rw [if_neg hl]
        push Not at hl
        by_cases hv : nodes0.all (· < m0.n) ∧ nodes1.all (· < m1.n)
        · rw [if_neg (not_not.2 hv)]
          have hv' := hv
          simp only [List.all_eq_true, decide_eq_true_eq] at hv'
          have : ¬ (d.addInterface name { region0 := region0, region1 := region1, nodes0 := nodes0, nodes1 := nodes1 } = .error) := by
            unfold Dev.addInterface
            cases d.interfaces name with
            | none => simp [hl.2]
            | some _ => simp
          simp only [this, false_iff, not_not]
          exact ⟨hn, hl.1.1, hl.2, m0, m1, rfl, rfl, hv'.1, hv'.2⟩
        · rw [if_pos hv]
          simp only [true_iff]
          rintro ⟨-, -, -, a, b, ha, hb, hc⟩
          cases ha; cases hb
          exact hv (by simpa [List.all_eq_true] using hc)

/-- **Making an interface**: with right arguments and a new name the device gets an interface with these nodes, and nothing else
changes. -/
theorem interface_from_nodes_partial {d : Dev} {name region0 region1 : String} {nodes0 nodes1 : List ℕ}
    (h : NodesOK d name region0 region1 nodes0 nodes1) (hi : d.interfaces name = none) :
    ∃ d' f, d.interfaceFromNodes name region0 region1 nodes0 nodes1 = .ok d' ∧ d'.interfaces name = some f ∧
      f.region0 = region0 ∧ f.region1 = region1 ∧ f.nodes0 = nodes0 ∧ f.nodes1 = nodes1 ∧ (∀ b q, f.stored b q = []) ∧
      f.provided = false ∧
      d'.dim = d.dim ∧ d'.regions = d.regions ∧ d'.contacts = d.contacts ∧ ∀ n, n ≠ name → d'.interfaces n = d.interfaces n := by
  obtain ⟨hn, hl, hlen, m0, m1, h0, h1, hv0, hv1⟩ := h
  have hl2 : ¬ ((nodes0 = [] ∨ nodes1 = []) ∨ nodes0.length ≠ nodes1.length) := by
    rintro ((h | h) | h)
    · exact hl h
    · subst h; exact hl (List.length_eq_zero_iff.1 hlen)
    · exact h hlen
  have hv : nodes0.all (· < m0.n) ∧ nodes1.all (· < m1.n) := by simpa [List.all_eq_true] using ⟨hv0, hv1⟩
  refine ⟨{ d with interfaces := put d.interfaces name { region0 := region0, region1 := region1, nodes0 := nodes0, nodes1 := nodes1 } },
    { region0 := region0, region1 := region1, nodes0 := nodes0, nodes1 := nodes1 }, by
      simp only [Dev.interfaceFromNodes, if_neg hn, h0, h1, if_neg hl2, if_neg (not_not.2 hv), Dev.addInterface, hi]
      rw [if_neg (not_not.2 hlen)], put_same _ _ _, rfl, rfl, rfl, rfl, ?_, rfl, rfl, rfl, rfl, fun n hn => put_ne _ _ hn⟩
  intro b q; cases b <;> cases q <;> rfl

/-- **A name that is in use ends the program**, instead of an error. -/
theorem interface_from_nodes_crashes {d : Dev} {name region0 region1 : String} {nodes0 nodes1 : List ℕ}
    (h : NodesOK d name region0 region1 nodes0 nodes1) (hi : d.interfaces name ≠ none) :
    d.interfaceFromNodes name region0 region1 nodes0 nodes1 = .crash := by
  obtain ⟨hn, hl, hlen, m0, m1, h0, h1, hv0, hv1⟩ := h
  have hl2 : ¬ ((nodes0 = [] ∨ nodes1 = []) ∨ nodes0.length ≠ nodes1.length) := by
    rintro ((h | h) | h)
    · exact hl h
    · subst h; exact hl (List.length_eq_zero_iff.1 hlen)
    · exact h hlen
  have hv : nodes0.all (· < m0.n) ∧ nodes1.all (· < m1.n) := by simpa [List.all_eq_true] using ⟨hv0, hv1⟩
  obtain ⟨f, hf⟩ := Option.ne_none_iff_exists'.1 hi
  simp only [Dev.interfaceFromNodes, if_neg hn, h0, h1, if_neg hl2, if_neg (not_not.2 hv), Dev.addInterface, hf]

/-! ### Writing -/

/-- **Interfaces made from nodes are written by their nodes**, in order. -/
theorem write_nodes {m0 m1 : Mesh} {f : Itf} (dim : ℕ) (h : f.provided = false ∨ dim = 1) :
    f.write dim m0 m1 = some (f, .nodes (f.nodes0.zip f.nodes1)) := by
  have : dim = 1 ∨ f.provided = false := h.symm
  simp [Itf.write, this]

/-- **Interfaces of a file with elements are written by them**, pair by pair. -/
theorem write_elems {m0 m1 : Mesh} {f : Itf} {dim : ℕ} (hp : f.provided = true) {q : Query}
    (hd : (dim = 2 ∧ q = .edges) ∨ (dim = 3 ∧ q = .tris)) (he : ∀ b, f.stored b q ≠ [])
    (hl : (f.stored false q).length = (f.stored true q).length) :
    f.write dim m0 m1 = some (f, .elems ((f.stored false q).zip (f.stored true q))) := by
  have h0 := he false
  have h1 := he true
  rcases hd with ⟨rfl, rfl⟩ | ⟨rfl, rfl⟩
  · simp only [Itf.stored] at h0 h1 hl ⊢
    simp [Itf.write, hp, Itf.getEdges0, Itf.getEdges1, h0, h1, hl]
  · simp only [Itf.stored] at h0 h1 hl ⊢
    simp [Itf.write, hp, Itf.getTris0, Itf.getTris1, h0, h1, hl]

/-- **Interfaces without elements are lost**: an interface that is written by its nodes, read, and written again is not in the second
file when no element of side 0 has all its nodes there. -/
theorem interface_lost {m0 m1 : Mesh} (p0 : Proper m0) (p1 : Proper m1) (hd : m0.dim = m1.dim) (h1d : m0.dim ≠ 1) {f : Itf}
    (hp : f.provided = false) (hf : ∀ b q, f.stored b q = [])
    (hno : ∀ i, ¬ Boundary m0 f.nodes0 (if m0.dim = 2 then .edges else .tris) i) :
    f.write m0.dim m0 m1 = some (f, .nodes (f.nodes0.zip f.nodes1)) ∧
    ∃ f', (f.load [] [] [] []).write m0.dim m0 m1 = some (f', .nothing) := by
  refine ⟨write_nodes _ (.inl hp), ?_⟩
  have hfr : (f.load [] [] [] []).Fresh m0 m1 := .inl fun b q => by cases b <;> cases q <;> rfl
  have hw : ¬ (m0.dim = 1 ∨ (f.load [] [] [] []).provided = false) := by
    simp [h1d, Itf.load]
  by_cases h2 : m0.dim = 2
  · obtain ⟨f1, a, a1, a2, a3, a4⟩ := Itf.ask_spec p0 p1 hd hfr false (q := .edges) (fun _ => rfl)
    obtain ⟨f2, a', b1, b2, b3, b4⟩ := Itf.ask_spec p0 p1 hd (.inr a3) true (q := .edges) (fun _ => rfl)
    simp only [Itf.ask, Option.map_eq_some_iff, Prod.mk.injEq] at a1 b1
    obtain ⟨g1, c1, rfl, -⟩ := a1
    obtain ⟨g2, c2, rfl, -⟩ := b1
    have : g2.edges0 = [] := by
      have h3 := b3 false .edges
      rw [(a2.trans b2).nodes] at h3
      rw [if_pos h2] at hno
      exact h3.unique (isList_nil hno)
    refine ⟨g2, ?_⟩
    simp only [Itf.write, if_neg hw, if_pos h2, c1, c2, this]
    simp
  · have h3 : ∀ q, Fits m0 q := fun q h => absurd h h2
    obtain ⟨f1, a, a1, a2, a3, a4⟩ := Itf.ask_spec p0 p1 hd hfr false (h3 .tris)
    obtain ⟨f2, a', b1, b2, b3, b4⟩ := Itf.ask_spec p0 p1 hd (.inr a3) true (h3 .tris)
    simp only [Itf.ask, Option.map_eq_some_iff, Prod.mk.injEq] at a1 b1
    obtain ⟨g1, c1, rfl, -⟩ := a1
    obtain ⟨g2, c2, rfl, -⟩ := b1
    have : g2.tris0 = [] := by
      have h3 := b3 false .tris
      rw [(a2.trans b2).nodes] at h3
      rw [if_neg h2] at hno
      exact h3.unique (isList_nil hno)
    refine ⟨g2, ?_⟩
    simp only [Itf.write, if_neg hw, if_neg h2, c1, c2, this]
    simp

end Verif.Bnd
