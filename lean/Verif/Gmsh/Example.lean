import Verif.Gmsh.Top

/-!
# A concrete Gmsh mesh

A square of two triangles, one in each region, a contact on one side and an interface on the diagonal.
-/

namespace Verif.Gmsh.Example
open Verif.MeshIO Verif.Gmsh

def env : Env Nat where
  atof := fun s => s.length
  ofInt := fun i => i.toNat
  zero := 0
  topoOK := fun _ _ _ _ _ => true
  bnames := fun _ _ => []
  run := fun _ _ d => (true, d)

def coords : List Nat := [0, 0, 0, 1, 0, 0, 1, 1, 0, 0, 1, 0]
def pnames : List Text := [['a'], ['b'], ['c'], ['i']]
def es : List Elem := [⟨2, 0, [2, 1, 0]⟩, ⟨2, 1, [0, 2, 3]⟩, ⟨1, 2, [1, 0]⟩, ⟨1, 3, [2, 0]⟩]
def cs : List Cmd := [.region ['a'] ['A'] ['S', 'i'], .region ['b'] ['B'] ['O', 'x'], .contact ['c'] ['C'] ['A'] ['m'],
  .iface ['i'] ['I'] ['A'] ['B']]

theorem accepted : Accepted coords pnames es := by
  constructor <;> simp only [Elem.Proper, coords, pnames, es] <;> decide

theorem small : ∀ e ∈ es, ∀ x ∈ encode e, x < 2147483648 := by decide
theorem distinct : ∀ e ∈ es, e.nodes.Nodup := by decide
theorem full : ∀ c ∈ cs, c.Full := by simp [cs, Cmd.Full]

/-- The mesh and the commands of `create_from_lists`. -/
def G : Gmsh Nat := ((run (loadArgs coords pnames (es.flatMap encode)).2 cs).getD {})

theorem finalizes : G.finalize.1 = true := by decide +kernel
theorem dim2 : G.finalize.2.dim = 2 := by decide +kernel

theorem used_iff {ps : List Text} {c : Nat} :
    Used G ps c ↔ ∃ e ∈ G.elems, G.groupName e ∈ ps ∧ c ∈ e.nodes := by
  unfold Used
  simp only [group_iff]
  constructor
  · rintro ⟨p, hp, e, ⟨he, rfl⟩, hc⟩; exact ⟨e, he, hp, hc⟩
  · rintro ⟨e, he, hp, hc⟩; exact ⟨_, hp, e, ⟨he, rfl⟩, hc⟩

theorem has_nodes {ps : List Text} {l : List Nat} (h : Has G ps l) :
    ∃ e ∈ G.elems, G.groupName e ∈ ps ∧ l.length ≤ e.nodes.length := by
  obtain ⟨p, hp, e, he, hs⟩ := h
  rw [group_iff] at he
  exact ⟨e, he.1, by rw [he.2]; exact hp, side_length hs⟩

theorem reg_a : G.regions.get ['A'] = some ⟨[['a']], ['S', 'i']⟩ := by decide +kernel
theorem reg_b : G.regions.get ['B'] = some ⟨[['b']], ['O', 'x']⟩ := by decide +kernel
theorem regions : G.regions = [(['A'], ⟨[['a']], ['S', 'i']⟩), (['B'], ⟨[['b']], ['O', 'x']⟩)] := by decide +kernel
theorem contacts : G.contacts = [(['C'], ⟨[['c']], ['A'], ['m']⟩)] := by decide +kernel
theorem ifaces : G.ifaces = [(['I'], ⟨[['i']], ['A'], ['B']⟩)] := by decide +kernel

theorem no_tris {p : Text} (hp : ∀ e ∈ G.elems, G.groupName e ∈ [p] → e.nodes.length < 3) {l : List Nat}
    (hl : l.length = 3) : ¬ Has G [p] l := by
  intro h
  obtain ⟨e, he, hn, hle⟩ := has_nodes h
  have := hp e he hn
  omega

/-- The hypotheses of the theorems about `create_device` are met. -/
theorem creates : (instantiate env G.finalize.2 ['d'] []).1 = .ok := by
  obtain ⟨_, G', hG', hL, _, _, h⟩ := create_from_lists accepted small full
  have e : G' = G := by unfold G; rw [hG']; rfl
  subst e
  refine ((h finalizes env ['d'] []).1).2 ⟨by decide, ?_, ?_, ?_⟩
  · intro n ri hn
    have hm := SMap.mem_of_get hn
    rw [regions] at hm
    simp only [List.mem_cons, Prod.mk.injEq, List.not_mem_nil, or_false] at hm
    refine ⟨?_, fun _ _ _ => rfl⟩
    intro c hc
    rw [used_iff] at hc
    obtain ⟨e, he, _, hc⟩ := hc
    have : ∀ e ∈ G.elems, ∀ c ∈ e.nodes, c < coords.length / 3 := by decide +kernel
    exact this e he c hc
  · intro n ci hn
    have hm := SMap.mem_of_get hn
    rw [contacts] at hm
    simp only [List.mem_cons, Prod.mk.injEq, List.not_mem_nil, or_false] at hm
    obtain ⟨_, rfl⟩ := hm
    have hno : ∀ l : List Nat, l.length = 3 → ¬ Has G [['c']] l := fun l => no_tris (by decide +kernel)
    refine ⟨_, reg_a, ⟨0, used_iff.2 (by decide +kernel)⟩, ?_, ⟨fun _ => hno, ?_⟩, ?_⟩
    · intro c hc
      rw [used_iff] at hc ⊢
      obtain ⟨e, he, hp, hc⟩ := hc
      have : ∀ e ∈ G.elems, G.groupName e ∈ [['c']] → ∀ c ∈ e.nodes, ∃ e ∈ G.elems, G.groupName e ∈ [['a']] ∧ c ∈ e.nodes := by
        decide +kernel
      exact this e he hp c hc
    · intro hd
      rw [dim2] at hd
      omega
    · rintro ⟨l, hl, hh⟩
      exact absurd hh (hno l hl)
  · intro n ii hn
    have hm := SMap.mem_of_get hn
    rw [ifaces] at hm
    simp only [List.mem_cons, Prod.mk.injEq, List.not_mem_nil, or_false] at hm
    obtain ⟨_, rfl⟩ := hm
    have hno : ∀ l : List Nat, l.length = 3 → ¬ Has G [['i']] l := fun l => no_tris (by decide +kernel)
    refine ⟨_, _, reg_a, reg_b, ⟨0, used_iff.2 (by decide +kernel)⟩, ?_, ⟨fun _ => hno, ?_⟩, ?_, ?_⟩
    · intro c hc
      rw [used_iff] at hc
      rw [used_iff, used_iff]
      obtain ⟨e, he, hp, hc⟩ := hc
      have : ∀ e ∈ G.elems, G.groupName e ∈ [['i']] → ∀ c ∈ e.nodes,
          (∃ e ∈ G.elems, G.groupName e ∈ [['a']] ∧ c ∈ e.nodes) ∧ ∃ e ∈ G.elems, G.groupName e ∈ [['b']] ∧ c ∈ e.nodes := by
        decide +kernel
      exact this e he hp c hc
    · intro hd
      rw [dim2] at hd
      omega
    · rintro ⟨l, hl, hh⟩
      exact absurd hh (hno l hl)
    · rintro ⟨l, hl, hh⟩
      exact absurd hh (hno l hl)

/-- The lists of `load_short`: the last node is missing, and the program reads past the end of the list. -/
theorem short : (loadArgs coords pnames (es.flatMap encode).dropLast).1 = .crash := by decide +kernel

/-- `2 ^ 32` is taken for node 0. -/
theorem narrowed : ((loadArgs coords [['a']] [1, 0, 4294967296, 1]).1,
    (loadArgs coords [['a']] [1, 0, 4294967296, 1]).2.elems) = (.ok, [⟨1, 0, [0, 1]⟩]) := by decide +kernel

/-- The number of names is accepted as a physical number. -/
theorem off_by_one : (loadArgs coords [['a']] [1, 0, 0, 1, 1, 1, 1, 2]).1 = .ok := by decide +kernel

/-- The contact of `create_crash`: the line from 1 to 3 is not on the region. -/
def es' : List Elem := [⟨2, 0, [2, 1, 0]⟩, ⟨2, 1, [0, 2, 3]⟩, ⟨1, 2, [1, 3]⟩, ⟨1, 3, [2, 0]⟩]

def G' : Gmsh Nat := ((run (loadArgs coords pnames (es'.flatMap encode)).2 cs).getD {})

theorem accepted' : Accepted coords pnames es' := by
  constructor <;> simp only [Elem.Proper, coords, pnames, es'] <;> decide

theorem crashes : (instantiate env G'.finalize.2 ['d'] []).1 = .crash := by
  obtain ⟨_, h2, h3, h4⟩ := load_ok accepted' (by decide)
  obtain ⟨h5, h6⟩ := commands_ok h3 h4 cs
  obtain ⟨G'', hG⟩ := Option.isSome_iff_exists.1 (h5.2 full)
  obtain ⟨_, h8, h9⟩ := h6 G'' hG
  have e : G'' = G' := by unfold G'; rw [hG]; rfl
  subst e
  have hF : Final G' G'.finalize.2 := ⟨h8.fresh, Prod.ext (by decide +kernel) rfl⟩
  have hc : G'.contacts.get ['C'] = some ⟨[['c']], ['A'], ['m']⟩ := by decide +kernel
  have hr : G'.regions.get ['A'] = some ⟨[['a']], ['S', 'i']⟩ := by decide +kernel
  have hu : ∀ {ps : List Text} {c : Nat}, Used G' ps c ↔ ∃ e ∈ G'.elems, G'.groupName e ∈ ps ∧ c ∈ e.nodes := by
    intro ps c
    unfold Used
    simp only [group_iff]
    constructor
    · rintro ⟨p, hp, e, ⟨he, rfl⟩, hc⟩; exact ⟨e, he, hp, hc⟩
    · rintro ⟨e, he, hp, hc⟩; exact ⟨_, hp, e, ⟨he, rfl⟩, hc⟩
  refine create_crash hF h8 env rfl ?_ hc hr ⟨1, hu.2 (by decide +kernel), hu.2 (by decide +kernel)⟩
    ⟨['c'], by simp, ⟨1, 2, [1, 3]⟩, 3, group_iff.2 (by decide +kernel), by decide, by decide, ?_⟩
  · intro n ri _
    refine ⟨?_, fun _ _ _ => rfl⟩
    intro c hc
    rw [hu] at hc
    obtain ⟨e, he, _, hc⟩ := hc
    have : ∀ e ∈ G'.elems, ∀ c ∈ e.nodes, c < coords.length / 3 := by decide +kernel
    exact ⟨c, (loaded_pos (loaded_same h2 h9) c c).2 ⟨rfl, this e he c hc⟩⟩
  · rw [hu]
    decide +kernel

/-- A group of lines and triangles with the same name: `finalize_mesh` fails (`finalize_iff`), and fails again
(`finalize_again`). -/
def esm : List Elem := [⟨1, 0, [0, 1]⟩, ⟨2, 1, [0, 1, 2]⟩]

def mixed : Gmsh Nat := (loadArgs coords [['a'], ['a']] (esm.flatMap encode)).2

theorem mixed_fails : mixed.finalize.1 = false ∧ mixed.finalize.2.finalize.1 = false := by
  have ha : Accepted coords [['a'], ['a']] esm := by constructor <;> simp only [Elem.Proper, coords, esm] <;> decide
  have h1 : mixed.finalize.1 = false := by decide +kernel
  exact ⟨h1, finalize_again (load_ok ha (by decide)).2.2.2.fresh h1 rfl⟩

end Verif.Gmsh.Example
