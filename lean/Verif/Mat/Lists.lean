import Verif.Mat.Answers

/-!
# C95: the lists, the dimension, and the models that are marked old
-/
namespace Verif.Mat
open Verif
open Verif.PyArg (Py Lib)
open Verif.EqCmd (sortedKeys onRegion onContact)
open Verif.Mat.Spec

variable {dflt : FMap String Py} {es : List Event}

theorem sorted_lists {V : Type} {m : FMap String V} (h : m.WF) : Lists (sortedKeys m) fun s => s ∈ m.keys := by
  refine ⟨?_, List.pairwise_insertionSort (· ≤ ·) _, ?_⟩
  · exact (List.perm_insertionSort (· ≤ ·) _).nodup_iff.mpr h
  · intro s; exact (List.perm_insertionSort (· ≤ ·) _).mem_iff

/-- **C95** `get_parameter_list` answers the names set at the place itself, each once, in order. -/
theorem get_parameter_list (hm : MapsOk es) (g : String → String) (v : Py) :
    (∀ s, Names es.reverse (g "device") (g "region") "" s → ∃ l, command (run (start dflt) es) .parameterList g v =
      (run (start dflt) es, .names l) ∧ l.Pairwise (· ≤ ·) ∧ ∀ n, n ∈ l ↔ setThere dflt es n s) ∧
    ((¬ ∃ s, Names es.reverse (g "device") (g "region") "" s) →
      Fails (run (start dflt) es) (command (run (start dflt) es) .parameterList g v)) := by
  have hs := shows_run dflt es hm
  constructor
  · intro s hn
    have he := (find_iff hs _ _ _).mpr ⟨s, hn⟩
    refine ⟨parameterList (run (start dflt) es) (g "device") (g "region"), ?_, ?_, ?_⟩
    · simp [cmd_parameterList, he]
    · unfold parameterList inOrder
      split
      · exact List.pairwise_insertionSort (· ≤ ·) _
      · split <;> exact List.pairwise_insertionSort (· ≤ ·) _
    · intro n
      have hp : ∀ l : List String, n ∈ inOrder l ↔ n ∈ l := fun l => (List.perm_insertionSort (· ≤ ·) l).mem_iff
      unfold parameterList
      rw [params_history dflt es hm]
      cases s with
      | nothing =>
        obtain ⟨a, b, _⟩ := hn
        rw [if_neg (by simp [b]), if_neg (by simp [a]), hp, Params.list_global]; rfl
      | device d =>
        obtain ⟨rfl, a, b, _⟩ := hn
        rw [if_neg (by simp [b]), if_pos a, hp, Params.list_device]; rfl
      | region d r =>
        obtain ⟨rfl, rfl, a, b, _⟩ := hn
        rw [if_pos b, hp, Params.list_region]; rfl
      | contact d k => exact absurd rfl hn.2.2.2.2.1
  · rw [← find_iff hs]
    intro e
    rw [cmd_parameterList, if_pos e]; exact ⟨rfl, _, e, rfl⟩

/-- **C95** `get_dimension` answers the dimension of the device; with no device there is no answer, with an unknown one an error. -/
theorem get_dimension (hm : MapsOk es) (g : String → String) (v : Py) :
    (∀ dev, described es.reverse (g "device") = some dev → g "device" ≠ "" → command (run (start dflt) es) .dimension g v =
      (run (start dflt) es, .number dev.dim)) ∧
    (described es.reverse (g "device") = none → g "device" ≠ "" →
      Fails (run (start dflt) es) (command (run (start dflt) es) .dimension g v)) ∧
    (g "device" = "" → command (run (start dflt) es) .dimension g v = (run (start dflt) es, .silent)) := by
  have hs := shows_run dflt es hm
  refine ⟨?_, ?_, ?_⟩
  · intro dev h hd
    rw [cmd_dimension, find_device hd]
    rcases hs.dev (g "device") with ⟨_, h1, _⟩ | ⟨x, y, h1, h2, h3⟩
    · rw [h] at h1; cases h1
    · rw [h] at h2; cases h2
      rw [h1]; simp [h3.dim]
  · intro h hd
    rw [cmd_dimension, find_device hd]
    rcases hs.dev (g "device") with ⟨h1, _⟩ | ⟨x, y, _, h2, _⟩
    · rw [h1]; dsimp only; rw [if_pos (device_msg _)]; exact ⟨rfl, _, device_msg _, rfl⟩
    · rw [h] at h2; cases h2
  · intro h
    rw [cmd_dimension, h, find_nothing]; rfl

/-- **C95** the lists: the devices there are, the interfaces and contacts of a device as it was made, in order. -/
theorem lists (hm : MapsOk es) (g : String → String) (v : Py) :
    (∃ l, command (run (start dflt) es) .deviceList g v = (run (start dflt) es, .names l) ∧
      Lists l fun d => (described es.reverse d).isSome) ∧
    (∀ dev, described es.reverse (g "device") = some dev →
      (∃ l, command (run (start dflt) es) .interfaceList g v = (run (start dflt) es, .names l) ∧ Lists l (· ∈ dev.interfaces.keys)) ∧
      (∃ l, command (run (start dflt) es) .contactList g v = (run (start dflt) es, .names l) ∧ Lists l (· ∈ dev.contacts.keys))) := by
  have hs := shows_run dflt es hm
  refine ⟨⟨_, rfl, ?_⟩, ?_⟩
  · obtain ⟨a, b, c⟩ := sorted_lists hs.wf
    refine ⟨a, b, fun d => ?_⟩
    rw [c]; dsimp only; rw [FMap.mem_keys, device_found hs]
  · intro dev h
    rcases hs.dev (g "device") with ⟨_, h1, _⟩ | ⟨x, y, h1, h2, h3⟩
    · rw [h] at h1; cases h1
    · rw [h] at h2; cases h2
      refine ⟨⟨sortedKeys x.interfaces, ?_, ?_⟩, ⟨sortedKeys x.contacts, ?_, ?_⟩⟩
      · simp [command, interfaceList, h1]
      · rw [← h3.ifs]; exact sorted_lists h3.iwf
      · simp [command, contactList, h1]
      · rw [← h3.ckeys]; exact sorted_lists h3.cwf

/-- **C95** `get_region_list`: the region of the contact, the two of the interface, or all in order; both a contact and an interface are refused, and
so is one that is not there. -/
theorem get_region_list (hm : MapsOk es) (g : String → String) (v : Py) {dev : Dev} (h : described es.reverse (g "device") = some dev) :
    (g "contact" = "" → g "interface" = "" →
      ∃ l, command (run (start dflt) es) .regionList g v = (run (start dflt) es, .names l) ∧ Lists l (· ∈ dev.regions.keys)) ∧
    (g "contact" ≠ "" → g "interface" = "" → ∀ ctc, dev.contacts.get (g "contact") = some ctc →
      command (run (start dflt) es) .regionList g v = (run (start dflt) es, .names [ctc.region])) ∧
    (g "contact" = "" → g "interface" ≠ "" → ∀ ifc, dev.interfaces.get (g "interface") = some ifc →
      command (run (start dflt) es) .regionList g v = (run (start dflt) es, .names [ifc.region0, ifc.region1])) ∧
    ((g "contact" ≠ "" ∧ g "interface" ≠ "" ∨ g "contact" ≠ "" ∧ dev.contacts.get (g "contact") = none ∨
        g "interface" ≠ "" ∧ dev.interfaces.get (g "interface") = none) →
      Fails (run (start dflt) es) (command (run (start dflt) es) .regionList g v)) := by
  have hs := shows_run dflt es hm
  rcases hs.dev (g "device") with ⟨_, h1, _⟩ | ⟨x, y, h1, h2, h3⟩
  · rw [h] at h1; cases h1
  rw [h] at h2; cases h2
  have hc : command (run (start dflt) es) .regionList g v = (run (start dflt) es, regionList (run (start dflt) es) (g "device") (g "contact") (g "interface")) := rfl
  have hcon := h3.creg (g "contact")
  rw [hc]
  unfold regionList contact? interface?
  rw [h1]
  simp only [Option.bind_some, h3.ifs]
  refine ⟨?_, ?_, ?_, ?_⟩
  · intro a b
    simp only [a, b]
    refine ⟨sortedKeys x.regions, by simp, ?_⟩
    rw [← h3.rkeys]; exact sorted_lists h3.rwf
  · intro a b ctc hk
    rw [hk] at hcon
    cases hx : x.contacts.get (g "contact") with
    | none => rw [hx] at hcon; cases hcon
    | some z =>
      rw [hx] at hcon
      simp only [Option.map_some, Option.some.injEq] at hcon
      rw [if_neg (by simp [b]), if_pos a, ← hcon]
  · intro a b ifc hk
    rw [if_neg (by simp [a]), if_neg (by simp [a]), if_pos b, hk]
  · intro hor
    by_cases both : g "contact" ≠ "" ∧ g "interface" ≠ ""
    · rw [if_pos both]; exact ⟨rfl, _, by decide, rfl⟩
    rw [if_neg both]
    rcases hor with h' | ⟨a, b⟩ | ⟨a, b⟩
    · exact absurd h' both
    · rw [b] at hcon
      cases hx : x.contacts.get (g "contact") with
      | some z => rw [hx] at hcon; cases hcon
      | none => rw [if_pos a]; exact ⟨rfl, _, contact_msg _ _, rfl⟩
    · rw [if_neg (by intro z; exact both ⟨z, a⟩), if_pos a, b]
      exact ⟨rfl, _, by unfold noInterface; exact app_ne (by decide), rfl⟩

/-- **C95** what is marked old: telling the material of a contact marks the models of its region that are displayed on it, and nothing else does:
telling the material of a region marks none. -/
theorem marked (hm : MapsOk es) (e : Event) :
    ∃ new, (step (run (start dflt) es) e).marks = new ++ (run (start dflt) es).marks ∧
      ∀ d r m, (d, r, m) ∈ new ↔ ∃ g v dev k, e = .command .setMaterial g v ∧ g "device" = d ∧ d ≠ "" ∧ g "region" = "" ∧ g "contact" = k ∧ k ≠ "" ∧
        described es.reverse d = some dev ∧ Displayed dev k r m := by
  have hs := shows_run dflt es hm
  have none_ : (step (run (start dflt) es) e).marks = (run (start dflt) es).marks → (∀ g v, e = .command .setMaterial g v →
      ∀ dev, described es.reverse (g "device") = some dev → g "device" ≠ "" → g "region" = "" → g "contact" ≠ "" →
        dev.contacts.get (g "contact") = none) →
      ∃ new, (step (run (start dflt) es) e).marks = new ++ (run (start dflt) es).marks ∧
      ∀ d r m, (d, r, m) ∈ new ↔ ∃ g v dev k, e = .command .setMaterial g v ∧ g "device" = d ∧ d ≠ "" ∧ g "region" = "" ∧ g "contact" = k ∧ k ≠ "" ∧
        described es.reverse d = some dev ∧ Displayed dev k r m := by
    intro h1 h2
    refine ⟨[], by rw [h1]; rfl, fun d r m => ⟨fun h => absurd h List.not_mem_nil, ?_⟩⟩
    rintro ⟨g, v, dev, k, he, rfl, a, b, rfl, c, hd, ctc, reg, hx, _⟩
    rw [h2 g v he dev hd a b c] at hx; cases hx
  cases e with
  | create d dev => exact none_ (by simp only [step, create]; split <;> rfl) (fun g v he => by cases he)
  | delete d => exact none_ (by simp only [step, delete]; split <;> rfl) (fun g v he => by cases he)
  | command c g v =>
    by_cases hc : c = .setMaterial
    · subst hc
      simp only [step] at none_ ⊢
      rw [cmd_setMaterial] at none_ ⊢
      by_cases hgo : g "device" ≠ "" ∧ g "region" = "" ∧ g "contact" ≠ "" ∧ ∃ ctc, contact? (run (start dflt) es) (g "device") (g "contact") = some ctc
      · obtain ⟨a, b, c, ctc, hx⟩ := hgo
        rw [b, find_contact a c, hx, if_neg (by simp)]
        rcases hs.dev (g "device") with ⟨h1, _⟩ | ⟨dev, dev0, h1, h2, sd⟩
        · simp [contact?, h1] at hx
        simp only [contact?, h1, Option.bind_some] at hx
        rw [h1]
        refine ⟨((displayed dev ctc (g "contact")).map fun x => (g "device", ctc.region, x)).reverse, rfl, ?_⟩
        have hcreg := sd.creg (g "contact")
        rw [hx] at hcreg
        obtain ⟨ctc0, hk0⟩ : ∃ ctc0, dev0.contacts.get (g "contact") = some ctc0 := by
          cases hz : dev0.contacts.get (g "contact") with
          | none => rw [hz] at hcreg; cases hcreg
          | some z => exact ⟨z, rfl⟩
        rw [hk0] at hcreg
        simp only [Option.map_some, Option.some.injEq] at hcreg
        have hrm := sd.rmod ctc.region
        intro d r m
        rw [List.mem_reverse, List.mem_map]
        constructor
        · rintro ⟨y, hy, he⟩
          cases he
          refine ⟨g, v, dev0, g "contact", rfl, rfl, a, b, rfl, c, h2, ctc0, ?_⟩
          unfold displayed at hy
          cases hr : dev.regions.get ctc.region with
          | none => rw [hr] at hy; cases hy
          | some reg =>
            rw [hr] at hy hrm
            obtain ⟨z, hz, rfl⟩ := List.mem_map.mp hy
            rw [List.mem_filter] at hz
            cases hr0 : dev0.regions.get ctc.region with
            | none => rw [hr0] at hrm; cases hrm
            | some reg0 =>
              rw [hr0] at hrm
              simp only [Option.map_some, Option.some.injEq] at hrm
              refine ⟨reg0, hk0, hcreg.symm, rfl, ?_⟩
              rw [← hrm]
              have : z = (z.1, some (g "contact")) := by rw [← of_decide_eq_true hz.2]
              rw [← this]; exact hz.1
        · rintro ⟨g', v', dev', k, he, rfl, _, _, rfl, _, hd, ctc', reg', hx', rfl, hr', hmem⟩
          cases he
          rw [h2] at hd; cases hd
          rw [hk0] at hx'; cases hx'
          rw [hcreg] at hrm
          rw [hr'] at hrm
          refine ⟨m, ?_, by rw [hcreg]⟩
          unfold displayed
          rw [hcreg]
          cases hr : dev.regions.get ctc0.region with
          | none => rw [hr] at hrm; cases hrm
          | some reg =>
            rw [hr] at hrm
            simp only [Option.map_some, Option.some.injEq] at hrm
            dsimp only
            refine List.mem_map.mpr ⟨(m, some (g "contact")), List.mem_filter.mpr ⟨by rw [hrm]; exact hmem, by simp⟩, rfl⟩
      · apply none_
        · split
          · rfl
          · rename_i hf
            unfold setMaterial
            cases hdv : (find (run (start dflt) es) (g "device") (g "region") (g "contact")).2.dev with
            | none => rfl
            | some dev =>
              dsimp only
              by_cases hd : g "device" = ""
              · exfalso
                by_cases hz : g "region" ≠ "" ∨ g "contact" ≠ ""
                · rw [hd, (find_bad hz).2] at hdv; cases hdv
                · push Not at hz
                  rw [hd, hz.1, hz.2, find_nothing] at hdv; cases hdv
              by_cases hr : g "region" = ""
              · by_cases hk : g "contact" = ""
                · rw [hr, hk, find_device hd]
                  cases (run (start dflt) es).devs.get (g "device") <;> rfl
                · have : contact? (run (start dflt) es) (g "device") (g "contact") = none := by
                    cases hz : contact? (run (start dflt) es) (g "device") (g "contact") with
                    | none => rfl
                    | some z => exact absurd ⟨hd, hr, hk, z, hz⟩ hgo
                  rw [hr, find_contact hd hk, this]
              · rw [find_region hd hr]
                cases region? (run (start dflt) es) (g "device") (g "region") <;> rfl
        · intro g' v' he dev hd a b c
          cases he
          rcases hs.dev (g "device") with ⟨_, h1, _⟩ | ⟨x, y, h1, h2, sd⟩
          · rw [hd] at h1; cases h1
          · rw [hd] at h2; cases h2
            have hcreg := sd.creg (g "contact")
            have hnone : x.contacts.get (g "contact") = none := by
              cases hz : x.contacts.get (g "contact") with
              | none => rfl
              | some z => exact absurd ⟨a, b, c, z, by simp [contact?, h1, hz]⟩ hgo
            rw [hnone] at hcreg
            cases hz : dev.contacts.get (g "contact") with
            | none => rfl
            | some z => rw [hz] at hcreg; cases hcreg
    · refine none_ ?_ (fun g' v' he => by cases he; exact absurd rfl hc)
      simp only [step]
      cases c with
      | setMaterial => exact absurd rfl hc
      | setParameter => rw [cmd_setParameter]; split; rfl; exact (setParameter_devs _ _ _ _ _).2.1
      | getParameter => rw [cmd_getParameter]; split <;> rfl
      | parameterList => rw [cmd_parameterList]; split <;> rfl
      | getMaterial => rw [cmd_getMaterial]; split <;> rfl
      | dimension =>
        rw [cmd_dimension]
        split
        · rfl
        · split <;> rfl
      | deviceList => rfl
      | regionList => rfl
      | interfaceList => rfl
      | contactList => rfl

end Verif.Mat
