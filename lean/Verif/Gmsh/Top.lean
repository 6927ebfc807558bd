import Verif.Gmsh.Load

/-!
# C70: from the lists given to `create_gmsh_mesh` to the device
-/

namespace Verif.Gmsh
open Verif.MeshIO

variable {α : Type}

theorem loaded_same {coords : List α} {pnames : List Text} {es : List Elem} {G G' : Gmsh α}
    (h : Loaded coords pnames es G) (hs : SameMesh G G') : Loaded coords pnames es G' := by
  obtain ⟨a1, a2, a3, a4, a5, a6, a7⟩ := hs
  refine ⟨by rw [a2]; exact h.ncoords, by rw [a2]; exact h.coords, by rw [a3]; exact h.elems, ?_⟩
  intro p e
  rw [← h.group]
  unfold Group
  rw [a1, a3]

/-- With lists, the coordinate with index `i` is coordinate number `i`. -/
theorem loaded_pos {coords : List α} {pnames : List Text} {es : List Elem} {G : Gmsh α}
    (h : Loaded coords pnames es G) (i j : Nat) : Pos G i j ↔ i = j ∧ j < coords.length / 3 := by
  have hn := h.ncoords
  unfold Pos
  constructor
  · rintro ⟨⟨c, hc⟩, _⟩
    have := (h.coords j _ hc).1
    obtain ⟨hlt, _⟩ := List.getElem?_eq_some_iff.1 hc
    exact ⟨this, by omega⟩
  · rintro ⟨rfl, hj⟩
    have hlt : i < G.coords.length := by omega
    have hg := List.getElem?_eq_getElem hlt
    have := (h.coords i _ hg).1
    refine ⟨⟨(G.coords[i]).2, by rw [hg]; congr 1; exact Prod.ext this rfl⟩, ?_⟩
    intro k c hk
    have := (h.coords k _ hk).1
    simp only at this
    omega

/-- **C70** From lists to a device. Let `create_gmsh_mesh` be given coordinates, names and a list of elements that it
accepts, all entries below 2³¹, and let the commands that describe the mesh have no empty option. Then all these
commands succeed; `finalize_mesh` succeeds if and only if elements with the same name have the same type; then
`create_device` succeeds if and only if the name is free and every region, contact and interface can be made; and
the device is the one that was described. -/
theorem create_from_lists {coords : List α} {pnames : List Text} {es : List Elem} (ha : Accepted coords pnames es)
    (hs : ∀ e ∈ es, ∀ x ∈ encode e, x < 2147483648) {cs : List Cmd} (hc : ∀ c ∈ cs, c.Full) :
    (loadArgs coords pnames (es.flatMap encode)).1 = .ok ∧
    ∃ G, run (loadArgs coords pnames (es.flatMap encode)).2 cs = some G ∧ Loaded coords pnames es G ∧ Says cs G ∧
      (G.finalize.1 = true ↔ ∀ p e e', Group G p e → Group G p e' → e.ty = e'.ty) ∧
      (G.finalize.1 = true → ∀ (env : Env α) (name : Text) (devs : Devs α),
        ((instantiate env G.finalize.2 name devs).1 = .ok ↔ devs.has name = false ∧
          (∀ n ri, G.regions.get n = some ri → (∀ c, Used G ri.pnames c → c < coords.length / 3) ∧
            ∀ ids r, RegionOK G G.finalize.2.dim ri ids r → env.topoOK r.dim r.nodes.length r.edges r.tris r.tets = true) ∧
          (∀ n ci, G.contacts.get n = some ci → ContactGood G G.finalize.2.dim ci) ∧
          (∀ n ii, G.ifaces.get n = some ii → IfaceGood G G.finalize.2.dim ii)) ∧
        ((∀ e ∈ es, e.nodes.Nodup) → (instantiate env G.finalize.2 name devs).1 = .ok →
          (∃ d, (instantiate env G.finalize.2 name devs).2.get name = some d ∧ DevOK G G.finalize.2.dim d) ∧
          ∀ n, n ≠ name → (instantiate env G.finalize.2 name devs).2.get n = devs.get n)) := by
  obtain ⟨h1, h2, h3, h4⟩ := load_ok ha hs
  refine ⟨h1, ?_⟩
  obtain ⟨h5, h6⟩ := commands_ok h3 h4 cs
  obtain ⟨G, hG⟩ := Option.isSome_iff_exists.1 (h5.2 hc)
  obtain ⟨h7, h8, h9⟩ := h6 G hG
  have hL := loaded_same h2 h9
  refine ⟨G, hG, hL, h7, finalize_iff h8.fresh, ?_⟩
  intro hfin env name devs
  have hF : Final G G.finalize.2 := ⟨h8.fresh, Prod.ext hfin rfl⟩
  constructor
  · rw [create_ok_iff hF h8]
    unfold RegionGood
    simp only [loaded_pos hL, ↓existsAndEq, true_and]
  · intro hd
    exact create_ok hF h8 (by intro e he; exact hd e (by rw [← hL.elems]; exact he)) env name devs

end Verif.Gmsh
