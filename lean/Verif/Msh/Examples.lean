import Verif.Msh.Main
import Verif.Mesh.Example1d

/-!
# Concrete cases of C96, and where the program does something else than a user expects
-/
namespace Verif.Msh
open Verif
open Verif.Msh.Spec
open Verif.Mesh (exLines exRegions exContacts exInterfaces exOrder ex_finalize)

noncomputable def exEnv : MeshIO.Env ℝ := ⟨fun _ => 0, fun _ => 0, 0, fun _ _ _ _ _ => true, fun _ _ => [], fun _ _ D => (true, D)⟩

open Classical in
/-- a standard engine exists -/
noncomputable def exEngine : Engine where
  fin t n b :=
    match b with
    | .one o =>
      if t = 0 then
        match Mesh.finalize 3 exOrder o.lines o.regions o.contacts o.interfaces with
        | .ok m => .ok (.one m)
        | .error => .error
        | .assertion => .assertion
        | .unfinished => .unfinished
      else .assertion
    | .two m =>
      match Mesh2d.finalize 3 (fun l => l.mergeSort fun a b => decide (a.pos ≤ b.pos)) n.toList m with
      | .ok l => .ok (.two l)
      | .error => .error
      | .assertion => .assertion
      | .unfinished => .unfinished
    | .gmsh => .ok .gmsh
  inst f d :=
    match f with
    | .one m =>
      match Mesh.instantiate m with
      | some D => (true, .one D)
      | none => (false, .other)
    | .two l =>
      let r := MeshIO.instantiate exEnv { l with name := d.toList } []
      (decide (r.1 = .ok), match r.2.get d.toList with | some D => .two D | none => .other)
    | .gmsh => (true, .other)

theorem exEngine_standard : Standard exEngine where
  one := ⟨3, exOrder, fun l => l.reverse_perm, fun _ _ => rfl⟩
  two := ⟨3, _, Mesh2d.isSort_mergeSort, fun _ _ => rfl⟩
  inst_one := by intro m d D h; simp [exEngine, h]
  inst_two := ⟨exEnv, fun _ _ _ _ => rfl, by intro l d D h; simp [exEngine, h]⟩

/-- a mesh that is told, finalized and made into a device; a second region comes too late, and the mesh is deleted -/
noncomputable def story : List Cmd :=
  [.create .one "m", .create .two "m",
   .line "m" "left" 0 1 1, .line "m" "mid" 1 1 1, .line "m" "right" 3 1 1, .line "m" "no" 3 1 0,
   .region "m" "oxide" "Oxide" "right" "mid", .region "m" "bulk" "Silicon" "left" "mid",
   .contact "m" "top" "metal" "left", .contact "m" "bot" "metal" "right", .interface "m" "junction" "mid",
   .device "m" "d", .finalize "m", .region "m" "late" "Oxide" "right" "mid", .device "m" "d", .device "m" "d", .delete "m"]

theorem onOne_open (f : One → One) (o : One) (t : Nat) (ds : FMap String DevR) :
    onOne ⟨[("m", ⟨.one o, none, t⟩)], ds⟩ "m" f = (⟨[("m", ⟨.one (f o), none, t⟩)], ds⟩, .ok) := by
  simp [onOne, open?, FMap.get, FMap.set, FMap.erase]

theorem onOne_closed (f : One → One) (o : One) (t : Nat) (F : Fin) (ds : FMap String DevR) :
    onOne ⟨[("m", ⟨.one o, some F, t⟩)], ds⟩ "m" f = (⟨[("m", ⟨.one o, some F, t⟩)], ds⟩, .refused) := by
  simp [onOne, open?, FMap.get]

/-- what becomes of the story: the answers, and where the device comes from -/
theorem story_answers : (start exEngine story).2.map (·.2) =
    [.ok, .refused, .ok, .refused, .ok, .refused, .ok, .ok, .ok, .ok, .ok, .refused, .ok, .ok, .ok, .refused, .ok] := by
  obtain ⟨M, hM, _⟩ := ex_finalize 0
  simp only [exLines, exRegions, exContacts, exInterfaces, Nat.zero_add] at hM
  have hD : ∃ D, Mesh.instantiate M = some D := by
    obtain ⟨D, h, _⟩ := Mesh.instantiate_spec (Mesh.finalize_spec (fun l => l.reverse_perm) (by
      intro c hc
      simp only [List.mem_cons, List.not_mem_nil, or_false] at hc
      rcases hc with rfl | rfl | rfl <;> norm_num) hM)
    exact ⟨D, h⟩
  obtain ⟨D, hD⟩ := hD
  have h1 : ¬ (1 : ℝ) ≤ 0 := by norm_num
  simp [start, story, run, step, create, empty, addLine, addRegion, addContact, addInterface, Mesh.mkLine, h1, onOne_open, onOne_closed, FMap.has,
    FMap.get, FMap.set, FMap.erase, device, finalize, open?, delete, exEngine, hM, hD]

/-- the whole history of the story -/
theorem zip_maps {α β : Type} : ∀ l : List (α × β), l = (l.map (·.1)).zip (l.map (·.2))
  | [] => rfl
  | (a, b) :: l => by rw [List.map_cons, List.map_cons, List.zip_cons_cons, ← zip_maps l]

theorem story_history : (start exEngine story).2 = story.reverse.zip
    [.ok, .refused, .ok, .refused, .ok, .refused, .ok, .ok, .ok, .ok, .ok, .refused, .ok, .ok, .ok, .refused, .ok] := by
  conv_lhs => rw [zip_maps (start exEngine story).2, story_answers]
  rw [start, history]
  simp

/-- the hypotheses of `device_one` are met: the device comes from a mesh that was finalized at the first try (and is gone by now) -/
theorem story_device : ∃ l, origin (start exEngine story).2 "d" = some (.ok, "m", .one, l) ∧ failures l = 0 ∧ finalized l ∧
    regions l = exRegions ∧ contacts l = exContacts ∧ interfaces l = exInterfaces ∧ lines l = exLines ∧ life (start exEngine story).2 "m" = none := by
  rw [story_history]
  have h1 : ¬ (1 : ℝ) ≤ 0 := by norm_num
  refine ⟨_, rfl, ?_, ⟨"m", by simp [story, life, about]⟩, ?_, ?_, ?_, ?_, ?_⟩ <;>
    simp [story, life, about, failures, regions, contacts, interfaces, lines, exRegions, exContacts, exInterfaces, exLines, h1]

/-! ### Where the program does something else than expected -/

/-- F56, F87 from the history: after a `create_device` that has failed the device is there all the same: it is listed, and the name is taken. -/
theorem failed_device (E : Engine) (cs : List Cmd) (m d : String) (hf : (step E (start E cs).1 (.device m d)).2 = .failed) (m' : String) :
    (∃ k l, origin ((.device m d, .failed) :: (start E cs).2) d = some (.failed, m, k, l)) ∧
    (step E (step E (start E cs).1 (.device m d)).1 (.device m' d)).2 = .refused := by
  obtain ⟨_, _, k, l, hl, _⟩ := (device_answer E cs m d).1 (by rw [hf]; simp)
  have ho : origin ((.device m d, .failed) :: (start E cs).2) d = some (.failed, m, k, l) := by
    simp [origin, hl]
  refine ⟨⟨k, l, ho⟩, ?_⟩
  have I := step_inv (start_inv E cs) (.device m d)
  rw [hf] at I
  by_contra hn
  have := ((device_inv I m' d).2.1).1 hn
  rw [ho] at this
  cases this.2.1

open Verif.Mesh (placeOn place sortLines getPoints addTag Layout tol)

theorem ex_sort : sortLines [⟨0, 1, 1, ""⟩, ⟨1, 1, 1, ""⟩, ⟨-1, 1, 1, "a"⟩, ⟨2, 1, 1, "b"⟩] =
    [⟨-1, 1, 1, "a"⟩, ⟨0, 1, 1, ""⟩, ⟨1, 1, 1, ""⟩, ⟨2, 1, 1, "b"⟩] := by
  unfold sortLines
  simp [List.mergeSort]
  norm_num

theorem ex_gap (x : ℝ) : getPoints 3 x (x + 1) 1 1 = some [x, x + 1] := by
  unfold getPoints
  rw [if_pos (by rw [sub_self, abs_zero, zero_div]; exact Mesh.tol_pos), Mesh.equidistance, Mesh.equiLoop, if_pos (by linarith)]
  dsimp only
  have : x + 1 > x + 1 - tol := by have := Mesh.tol_pos; linarith
  rw [if_pos this, Mesh.equiLoop, if_neg (lt_irrefl _)]
  rfl

theorem ex_gaps : getPoints 3 (-1) 0 1 1 = some [-1, 0] ∧ getPoints 3 0 1 1 1 = some [0, 1] ∧ getPoints 3 1 2 1 1 = some [1, 2] := by
  refine ⟨?_, ?_, ?_⟩
  · have := ex_gap (-1); norm_num at this; exact this
  · have := ex_gap 0; norm_num at this; exact this
  · have := ex_gap 1; norm_num at this; exact this

/-- F147: two lines without tags; `finalize_mesh` fails because there are no contacts, and leaves the positions `0, 1` behind. Two more lines, with tags, a
region and two contacts are told, and the positions are computed again: the old ones stay in front, so that the mesh has the positions
`0, 1, -1, 0, 1, 2`; the tags mark the ends of this list, and the checks of contacts and regions pass. -/
theorem retry_wrong :
    place 3 [⟨0, 1, 1, ""⟩, ⟨1, 1, 1, ""⟩] = .ok ⟨[0, 1], []⟩ ∧
    Mesh.finalize 3 exOrder [⟨0, 1, 1, ""⟩, ⟨1, 1, 1, ""⟩] [] [] [] = .error ∧
    ∃ L : Layout, placeOn 3 ⟨[0, 1], []⟩ [⟨0, 1, 1, ""⟩, ⟨1, 1, 1, ""⟩, ⟨-1, 1, 1, "a"⟩, ⟨2, 1, 1, "b"⟩] = .ok L ∧
      L.locations = [0, 1, -1, 0, 1, 2] ∧
      Mesh.sortTags L ⟨"r", "Silicon", "a", "b"⟩ = some ⟨"r", "Silicon", 0, 5⟩ ∧
      Mesh.checkContacts L [⟨"top", "metal", "a"⟩, ⟨"bot", "metal", "b"⟩] = .ok (0, 5) ∧
      Mesh.checkRegions [] (L.locations.length - 1) [⟨"r", "Silicon", 0, 5⟩] 0 = some 5 := by
  obtain ⟨g1, g2, g3⟩ := ex_gaps
  have hs : sortLines [⟨0, 1, 1, ""⟩, ⟨1, 1, 1, ""⟩] = [⟨0, 1, 1, ""⟩, ⟨1, 1, 1, ""⟩] := by
    unfold sortLines
    refine List.mergeSort_of_pairwise ?_
    simp
  have hp : place 3 [⟨0, 1, 1, ""⟩, ⟨1, 1, 1, ""⟩] = .ok ⟨[0, 1], []⟩ := by
    unfold place placeOn
    rw [hs]
    simp [addTag, Mesh.placeLoop, g2]
  refine ⟨hp, ?_, ⟨[0, 1, -1, 0, 1, 2], [("b", 5), ("a", 0)]⟩, ?_, rfl, ?_, ?_, ?_⟩
  · unfold Mesh.finalize
    rw [hp]
    simp [Mesh.sortAllTags, Mesh.checkContacts]
  · unfold placeOn
    rw [ex_sort]
    have e1 : (-1 : ℝ) < 0 := by norm_num
    simp [addTag, Layout.find, List.lookup, Mesh.placeLoop, g1, g2, g3, e1]
  · simp [Mesh.sortTags, Layout.find, List.lookup]
  · simp [Mesh.checkContacts, Layout.find, List.lookup]
  · simp [Mesh.checkRegions]

end Verif.Msh
