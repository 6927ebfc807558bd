import Verif.Mat.Props

/-!
# C95: what the commands answer after any history
-/
namespace Verif.Mat
open Verif
open Verif.PyArg (Py Lib)
open Verif.EqCmd (sortedKeys onRegion onContact)
open Verif.Mat.Spec

/-! the commands one by one -/
section
variable (W : World) (g : String → String) (v : Py)
theorem cmd_setParameter : command W .setParameter g v =
    if (find W (g "device") (g "region") "").1 ≠ "" then (W, .err (find W (g "device") (g "region") "").1)
    else (setParameter W (g "device") (g "region") (g "name") v, .empty) := by simp [command]
theorem cmd_getParameter : command W .getParameter g v =
    if (find W (g "device") (g "region") "").1 ≠ "" then (W, .err (find W (g "device") (g "region") "").1)
    else (W, getParameter W (g "device") (g "region") (g "name")) := by simp [command]
theorem cmd_parameterList : command W .parameterList g v =
    if (find W (g "device") (g "region") "").1 ≠ "" then (W, .err (find W (g "device") (g "region") "").1)
    else (W, .names (parameterList W (g "device") (g "region"))) := by simp [command]
theorem cmd_setMaterial : command W .setMaterial g v =
    if (find W (g "device") (g "region") (g "contact")).1 ≠ "" then (W, .err (find W (g "device") (g "region") (g "contact")).1)
    else (setMaterial W (g "device") (g "region") (g "contact") (g "material") (find W (g "device") (g "region") (g "contact")).2, .empty) := by
  simp [command]
theorem cmd_getMaterial : command W .getMaterial g v =
    if (find W (g "device") (g "region") (g "contact")).1 ≠ "" then (W, .err (find W (g "device") (g "region") (g "contact")).1)
    else (W, .text (getMaterial (find W (g "device") (g "region") (g "contact")).2)) := by simp [command]
theorem cmd_dimension : command W .dimension g v =
    if (find W (g "device") "" "").1 ≠ "" then (W, .err (find W (g "device") "" "").1)
    else match (find W (g "device") "" "").2.dev with
      | some dev => (W, .number dev.dim)
      | none => (W, .silent) := by
  unfold command; dsimp only; simp only [if_true, reduceCtorEq, or_self, if_false]
  cases (find W (g "device") "" "").2.dev <;> rfl
end

theorem setParameter_devs (W : World) (d r n : String) (v : Py) : (setParameter W d r n v).devs = W.devs ∧ (setParameter W d r n v).marks = W.marks ∧
    (setParameter W d r n v).params.devices = W.params.devices := by
  unfold setParameter
  by_cases hd : d ≠ ""
  · rw [if_pos hd]
    by_cases hr : r ≠ ""
    · rw [if_pos hr]; exact ⟨rfl, rfl, rfl⟩
    · rw [if_neg hr]; exact ⟨rfl, rfl, rfl⟩
  · rw [if_neg hd]; exact ⟨rfl, rfl, rfl⟩

theorem shows_command {W : World} {h} (hs : Shows W h) (c : Cmd) (g : String → String) (v : Py) :
    Shows (command W c g v).1 (.command c g v :: h) := by
  by_cases hc : c = .setMaterial
  · subst hc; exact shows_setMaterial hs g v
  obtain ⟨k1, k2, k3⟩ := known_other c g v h hc
  have same : Shows W (.command c g v :: h) := by
    refine ⟨hs.wf, ?_, hs.params⟩
    intro d; rw [k1, k2, k3]; exact hs.dev d
  cases c with
  | setParameter =>
    rw [cmd_setParameter]
    split
    · exact same
    · have e := setParameter_devs W (g "device") (g "region") (g "name") v
      refine ⟨by rw [e.1]; exact hs.wf, ?_, ?_⟩
      · intro d; rw [e.1, k1, k2, k3]; exact hs.dev d
      · intro d; rw [e.1, e.2.2]; exact hs.params d
  | setMaterial => exact absurd rfl hc
  | getParameter => rw [cmd_getParameter]; split <;> exact same
  | parameterList => rw [cmd_parameterList]; split <;> exact same
  | getMaterial => rw [cmd_getMaterial]; split <;> exact same
  | dimension =>
    rw [cmd_dimension]
    split
    · exact same
    · split <;> exact same
  | deviceList => exact same
  | regionList => exact same
  | interfaceList => exact same
  | contactList => exact same

theorem shows_run (dflt : FMap String Py) (es : List Event) (h : MapsOk es) : Shows (run (start dflt) es) es.reverse := by
  have key : ∀ (es : List Event) W h, MapsOk es → Shows W h → Shows (run W es) (es.reverse ++ h) := by
    intro es
    induction es with
    | nil => intro W h _ hs; exact hs
    | cons e es ih =>
      intro W h hm hs
      have hm' : MapsOk es := fun d dev hx => hm d dev (List.mem_cons_of_mem _ hx)
      have hstep : Shows (step W e) (e :: h) := by
        cases e with
        | create d dev =>
          obtain ⟨a, b, c⟩ := hm d dev List.mem_cons_self
          exact shows_create hs d dev a b c
        | delete d => exact shows_delete hs d
        | command c g v => exact shows_command hs c g v
      have := ih _ _ hm' hstep
      simpa [run] using this
  simpa using key es _ [] h (shows_start dflt)

/-! ### The parameters -/

theorem has_devices {W : World} {h} (hs : Shows W h) (d : String) : W.params.devices.has d = W.devs.has d := by
  unfold FMap.has; rw [hs.params]; cases W.devs.get d <;> rfl

theorem given_empty : given "" = none := rfl
theorem given_name {d : String} (h : d ≠ "") : given d = some d := by unfold given; rw [if_neg h]

theorem params_step {W : World} {h} (hs : Shows W h) (e : Event) :
    (step W e).params = Params.run W.params (paramOp e) := by
  cases e with
  | create d dev =>
    simp only [step, create, paramOp, Params.run, List.foldl, Params.step, Params.exec, has_devices hs]
    by_cases hh : W.devs.has d = true
    · rw [if_pos hh, if_pos hh]; rfl
    · rw [if_neg hh, if_neg hh]; rfl
  | delete d =>
    simp only [step, delete, paramOp, Params.run, List.foldl, Params.step, Params.exec, has_devices hs]
    by_cases hh : W.devs.has d = true
    · rw [if_pos hh, if_pos hh]; rfl
    · rw [if_neg hh, if_neg hh]; rfl
  | command c g v =>
    by_cases hc : c = .setParameter
    · subst hc
      simp only [step, cmd_setParameter, paramOp, if_pos, Params.run, List.foldl, Params.step]
      generalize g "device" = d
      generalize g "region" = r
      generalize g "name" = n
      by_cases hd : d = ""
      · subst hd
        by_cases hr : r = ""
        · subst hr; rw [find_nothing]; rfl
        · rw [if_pos (find_bad (.inl hr)).1]
          rw [given_name hr, given_empty]; rfl
      by_cases hr : r = ""
      · subst hr
        rw [find_device hd]
        rw [given_name hd, given_empty]
        cases hx : W.devs.get d with
        | none =>
          dsimp only; rw [if_pos (device_msg d)]
          simp [Params.exec, FMap.has, hs.params, hx]
        | some dev =>
          simp [Params.exec, FMap.has, hs.params, hx, setParameter, hd]
      · rw [find_region hd hr]
        simp only [given_name hd, given_name hr, Params.exec, hs.params]
        unfold region?
        cases hx : W.devs.get d with
        | none => simp only [Option.bind_none, Option.map_none]; rw [if_pos (region_msg d r)]; rfl
        | some dev =>
          simp only [Option.bind_some, Option.map_some]
          cases hy : dev.regions.get r with
          | none =>
            have hmem : ¬ r ∈ dev.regions.keys := by rw [FMap.mem_keys, hy]; simp
            dsimp only; rw [if_pos (region_msg d r), if_neg hmem]; rfl
          | some reg =>
            have hmem : r ∈ dev.regions.keys := by rw [FMap.mem_keys, hy]; rfl
            rw [if_pos hmem]
            simp only [setParameter]
            rw [if_neg (by simp), if_pos hd, if_pos hr]; rfl
    · simp only [step, paramOp, if_neg hc, Params.run, List.foldl]
      cases c with
      | setParameter => exact absurd rfl hc
      | setMaterial =>
        rw [cmd_setMaterial]
        split
        · rfl
        · dsimp only [setMaterial]
          split
          · rfl
          · split <;> rfl
      | getParameter => rw [cmd_getParameter]; split <;> rfl
      | parameterList => rw [cmd_parameterList]; split <;> rfl
      | getMaterial => rw [cmd_getMaterial]; split <;> rfl
      | dimension =>
        rw [cmd_dimension]
        split
        · rfl
        · split <;> rfl
      | deviceList => rfl
      | regionList => rfl
      | interfaceList => rfl
      | contactList => rfl

/-- **C95** the parameters after any history are those of C10: every `set_parameter` with an empty device is a global one, with an empty region one
on the device; nothing else touches them but the making and deleting of devices. -/
theorem params_history (dflt : FMap String Py) (es : List Event) (h : MapsOk es) :
    (run (start dflt) es).params = Params.run (Params.init dflt) (es.flatMap paramOp) := by
  have key : ∀ (es : List Event) W h, MapsOk es → Shows W h → (run W es).params = Params.run W.params (es.flatMap paramOp) := by
    intro es
    induction es with
    | nil => intro W h _ _; rfl
    | cons e es ih =>
      intro W h hm hs
      have hm' : MapsOk es := fun d dev hx => hm d dev (List.mem_cons_of_mem _ hx)
      have hstep : Shows (step W e) (e :: h) := by
        cases e with
        | create d dev =>
          obtain ⟨a, b, c⟩ := hm d dev List.mem_cons_self
          exact shows_create hs d dev a b c
        | delete d => exact shows_delete hs d
        | command c g v => exact shows_command hs c g v
      have e1 : run W (e :: es) = run (step W e) es := rfl
      rw [e1, ih _ _ hm' hstep, params_step hs]
      simp [Params.run, List.flatMap_cons, List.foldl_append]
  exact key es _ [] h (shows_start dflt)

/-! ### Answers -/

/-- the answer is an error, and nothing is changed -/
def Fails (W : World) (x : World × Res) : Prop := x.1 = W ∧ ∃ m, m ≠ "" ∧ x.2 = .err m

section
variable {dflt : FMap String Py} {es : List Event}

/-- what is meant by the texts of a call: the region, else the contact, else the device; `none`: something is not there, or no device is named -/
inductive Subject
  | nothing
  | device (d : String)
  | region (d r : String)
  | contact (d k : String)

def Names (h : List Event) (d r k : String) : Subject → Prop
  | .nothing => d = "" ∧ r = "" ∧ k = ""
  | .device d' => d' = d ∧ d ≠ "" ∧ r = "" ∧ k = "" ∧ (described h d).isSome
  | .region d' r' => d' = d ∧ r' = r ∧ d ≠ "" ∧ r ≠ "" ∧ (regionMaterial h d r).isSome
  | .contact d' k' => d' = d ∧ k' = k ∧ d ≠ "" ∧ r = "" ∧ k ≠ "" ∧ (contactMaterial h d k).isSome

theorem find_iff {W : World} {h} (hs : Shows W h) (d r k : String) :
    (find W d r k).1 = "" ↔ ∃ s, Names h d r k s := by
  by_cases hd : d = ""
  · subst hd
    by_cases hx : r ≠ "" ∨ k ≠ ""
    · refine ⟨fun e => absurd e (find_bad hx).1, ?_⟩
      rintro ⟨s, hn⟩
      cases s with
      | nothing => obtain ⟨_, rfl, rfl⟩ := hn; simp at hx
      | device d' => exact absurd rfl hn.2.1
      | region d' r' => exact absurd rfl hn.2.2.1
      | contact d' k' => exact absurd rfl hn.2.2.1
    · push Not at hx
      obtain ⟨rfl, rfl⟩ := hx
      rw [find_nothing]
      exact ⟨fun _ => ⟨.nothing, rfl, rfl, rfl⟩, fun _ => rfl⟩
  by_cases hr : r = ""
  · subst hr
    by_cases hk : k = ""
    · subst hk
      rw [find_device hd]
      have e := device_found hs d
      constructor
      · intro hf
        refine ⟨.device d, rfl, hd, rfl, rfl, ?_⟩
        rw [← e]
        cases hx : W.devs.get d with
        | none => rw [hx] at hf; exact absurd hf (device_msg d)
        | some _ => rfl
      · rintro ⟨s, hn⟩
        cases s with
        | nothing => exact absurd hn.1 hd
        | device d' =>
          have := hn.2.2.2.2
          rw [← e] at this
          obtain ⟨x, hx⟩ := Option.isSome_iff_exists.mp this
          rw [hx]
        | region d' r' => exact absurd rfl hn.2.2.2.1
        | contact d' k' => exact absurd rfl hn.2.2.2.2.1
    · rw [find_contact hd hk]
      have e := contact_found hs d k
      constructor
      · intro hf
        refine ⟨.contact d k, rfl, rfl, hd, rfl, hk, ?_⟩
        rw [← e]
        cases hx : contact? W d k with
        | none => rw [hx] at hf; exact absurd hf (contact_msg d k)
        | some _ => rfl
      · rintro ⟨s, hn⟩
        cases s with
        | nothing => exact absurd hn.1 hd
        | device d' => exact absurd hn.2.2.2.1 hk
        | region d' r' => exact absurd rfl hn.2.2.2.1
        | contact d' k' =>
          have := hn.2.2.2.2.2
          rw [← e] at this
          cases hx : contact? W d k with
          | none => rw [hx] at this; cases this
          | some _ => rfl
  · rw [find_region hd hr]
    have e := region_found hs d r
    constructor
    · intro hf
      refine ⟨.region d r, rfl, rfl, hd, hr, ?_⟩
      rw [← e]
      cases hx : region? W d r with
      | none => rw [hx] at hf; exact absurd hf (region_msg d r)
      | some _ => rfl
    · rintro ⟨s, hn⟩
      cases s with
      | nothing => exact absurd hn.1 hd
      | device d' => exact absurd hn.2.2.1 hr
      | region d' r' =>
        have := hn.2.2.2.2
        rw [← e] at this
        cases hx : region? W d r with
        | none => rw [hx] at this; cases this
        | some _ => rfl
      | contact d' k' => exact absurd hn.2.2.2.1 hr

/-- **C95** `set_material` is refused exactly if what it names is not there; what it does otherwise, the next questions tell. -/
theorem set_material (hm : MapsOk es) (g : String → String) (v : Py) :
    ((∃ s, Names es.reverse (g "device") (g "region") (g "contact") s) → (command (run (start dflt) es) .setMaterial g v).2 = .empty) ∧
    ((¬ ∃ s, Names es.reverse (g "device") (g "region") (g "contact") s) →
      Fails (run (start dflt) es) (command (run (start dflt) es) .setMaterial g v)) := by
  have hs := shows_run dflt es hm
  rw [← find_iff hs]
  constructor
  · intro e; simp [cmd_setMaterial, e]
  · intro e
    rw [cmd_setMaterial, if_pos e]; exact ⟨rfl, _, e, rfl⟩

/-- **C95** `get_material` answers the material told last for the region named, or else for the contact, and the empty text if neither is named; it
is refused exactly if what it names is not there. -/
theorem get_material (hm : MapsOk es) (g : String → String) (v : Py) :
    (∀ s, Names es.reverse (g "device") (g "region") (g "contact") s → command (run (start dflt) es) .getMaterial g v =
      (run (start dflt) es, .text (match s with
        | .region d r => (regionMaterial es.reverse d r).getD ""
        | .contact d k => (contactMaterial es.reverse d k).getD ""
        | _ => ""))) ∧
    ((¬ ∃ s, Names es.reverse (g "device") (g "region") (g "contact") s) →
      Fails (run (start dflt) es) (command (run (start dflt) es) .getMaterial g v)) := by
  have hs := shows_run dflt es hm
  constructor
  · intro s hn
    have he := (find_iff hs _ _ _).mpr ⟨s, hn⟩
    have hc : command (run (start dflt) es) .getMaterial g v =
        (run (start dflt) es, .text (getMaterial (find (run (start dflt) es) (g "device") (g "region") (g "contact")).2)) := by
      simp [cmd_getMaterial, he]
    rw [hc]
    congr 2
    cases s with
    | nothing => obtain ⟨a, b, c⟩ := hn; rw [a, b, c, find_nothing]; rfl
    | device d =>
      obtain ⟨_, a, b, c, _⟩ := hn
      rw [b, c, find_device a]
      cases (run (start dflt) es).devs.get (g "device") <;> rfl
    | region d r =>
      obtain ⟨rfl, rfl, a, b, _⟩ := hn
      rw [find_region a b]
      dsimp only
      rw [← region_found hs]
      cases region? (run (start dflt) es) (g "device") (g "region") <;> rfl
    | contact d k =>
      obtain ⟨rfl, rfl, a, b, c, _⟩ := hn
      rw [b, find_contact a c]
      dsimp only
      rw [← contact_found hs]
      cases contact? (run (start dflt) es) (g "device") (g "contact") <;> rfl
  · rw [← find_iff hs]
    intro e
    rw [cmd_getMaterial, if_pos e]; exact ⟨rfl, _, e, rfl⟩

/-- **C95** `set_parameter` is refused exactly if the device or region it names is not there; `params_history` tells what it does. -/
theorem set_parameter (hm : MapsOk es) (g : String → String) (v : Py) :
    ((∃ s, Names es.reverse (g "device") (g "region") "" s) → (command (run (start dflt) es) .setParameter g v).2 = .empty) ∧
    ((¬ ∃ s, Names es.reverse (g "device") (g "region") "" s) →
      Fails (run (start dflt) es) (command (run (start dflt) es) .setParameter g v)) := by
  have hs := shows_run dflt es hm
  rw [← find_iff hs]
  constructor
  · intro e; simp [cmd_setParameter, e]
  · intro e
    rw [cmd_setParameter, if_pos e]; exact ⟨rfl, _, e, rfl⟩

/-- what the history says of a parameter, C10 -/
def known (dflt : FMap String Py) (es : List Event) (n : String) : Subject → Option Py
  | .region d r => match Params.lastRegion (es.flatMap paramOp).reverse d r n with
    | some v => some v
    | none => match Params.lastDevice (es.flatMap paramOp).reverse d n with
      | some v => some v
      | none => Params.lastGlobal dflt.get (es.flatMap paramOp).reverse n
  | .device d => match Params.lastDevice (es.flatMap paramOp).reverse d n with
    | some v => some v
    | none => Params.lastGlobal dflt.get (es.flatMap paramOp).reverse n
  | _ => Params.lastGlobal dflt.get (es.flatMap paramOp).reverse n

/-- what the history says of the names set at a place itself -/
def setThere (dflt : FMap String Py) (es : List Event) (n : String) : Subject → Prop
  | .region d r => Params.lastRegion (es.flatMap paramOp).reverse d r n ≠ none
  | .device d => Params.lastDevice (es.flatMap paramOp).reverse d n ≠ none
  | _ => Params.lastGlobal dflt.get (es.flatMap paramOp).reverse n ≠ none

/-- **C95** `get_parameter` answers the object set last on the region, else on the device, else globally, as C10 says. -/
theorem get_parameter (hm : MapsOk es) (g : String → String) (v : Py) :
    (∀ s x, Names es.reverse (g "device") (g "region") "" s → known dflt es (g "name") s = some x →
      command (run (start dflt) es) .getParameter g v = (run (start dflt) es, .object x)) ∧
    ((¬ ∃ s, Names es.reverse (g "device") (g "region") "" s ∧ known dflt es (g "name") s ≠ none) →
      Fails (run (start dflt) es) (command (run (start dflt) es) .getParameter g v)) := by
  have hs := shows_run dflt es hm
  have ans : ∀ s, Names es.reverse (g "device") (g "region") "" s → command (run (start dflt) es) .getParameter g v = (run (start dflt) es,
      match known dflt es (g "name") s with
      | some v => .object v
      | none => .err ("Cannot find parameter \"" ++ g "name" ++ "\"\n")) := by
    intro s hn
    have he := (find_iff hs _ _ _).mpr ⟨s, hn⟩
    have hc : command (run (start dflt) es) .getParameter g v =
        (run (start dflt) es, getParameter (run (start dflt) es) (g "device") (g "region") (g "name")) := by
      simp [cmd_getParameter, he]
    rw [hc]
    congr 1
    unfold getParameter
    rw [params_history dflt es hm]
    cases s with
    | nothing =>
      obtain ⟨a, b, _⟩ := hn
      dsimp only
      rw [if_neg (by simp [a]), Params.lookup_global]; rfl
    | device d =>
      obtain ⟨rfl, a, b, _⟩ := hn
      dsimp only
      rw [if_pos a, if_neg (by simp [b]), Params.lookup_device]; dsimp only [known]
      cases Params.lastDevice (es.flatMap paramOp).reverse (g "device") (g "name") <;> rfl
    | region d r =>
      obtain ⟨rfl, rfl, a, b, _⟩ := hn
      dsimp only
      rw [if_pos a, if_pos b, Params.lookup_region]; dsimp only [known]
      cases Params.lastRegion (es.flatMap paramOp).reverse (g "device") (g "region") (g "name") <;>
        cases Params.lastDevice (es.flatMap paramOp).reverse (g "device") (g "name") <;> rfl
    | contact d k => exact absurd rfl hn.2.2.2.2.1
  constructor
  · intro s x hn hk
    rw [ans s hn, hk]
  · intro hno
    by_cases hex : ∃ s, Names es.reverse (g "device") (g "region") "" s
    · obtain ⟨s, hn⟩ := hex
      have : known dflt es (g "name") s = none := by
        by_contra hk; exact hno ⟨s, hn, hk⟩
      rw [ans s hn, this]
      refine ⟨rfl, _, ?_, rfl⟩
      exact app_ne (by decide)
    · rw [← find_iff hs] at hex
      rw [cmd_getParameter, if_pos hex]; exact ⟨rfl, _, hex, rfl⟩

end

end Verif.Mat
