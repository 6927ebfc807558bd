import Verif.Mat.Cmds

/-!
# Concrete cases of C95, and where the program does something else than a user expects
-/
namespace Verif.Mat
open Verif
open Verif.PyArg (Py Lib)
open Verif.Mat.Spec

def diode : Dev :=
  ⟨2, [("right", ⟨"Silicon", [("n", none), ("V", some "top"), ("p", some "bot")]⟩), ("left", ⟨"Oxide", []⟩)],
    [("top", ⟨"right", "metal"⟩), ("bot", ⟨"left", "metal"⟩)], [("gap", ⟨"right", "left"⟩)]⟩

def texts (l : List (String × String)) : String → String := fun n => (l.lookup n).getD ""

def mat (l : List (String × String)) : Event := .command .setMaterial (texts (("device", "diode") :: l)) (.str "")
def par (l : List (String × String)) (v : Py) : Event := .command .setParameter (texts l) v

/-- a device, two materials told, three parameters -/
def story : List Event :=
  [.create "diode" diode, mat [("region", "left"), ("material", "Nitride")], mat [("contact", "top"), ("material", "Al")],
   par [("name", "T")] (.int 300), par [("device", "diode"), ("name", "T")] (.int 310),
   par [("device", "diode"), ("region", "left"), ("name", "q")] (.int 7)]

theorem story_ok : MapsOk story := by
  intro d dev h
  simp only [story, mat, par, List.mem_cons, List.not_mem_nil, or_false, Event.create.injEq, reduceCtorEq] at h
  obtain ⟨rfl, rfl⟩ := h
  exact ⟨by simp [FMap.WF, FMap.keys, diode], by simp [FMap.WF, FMap.keys, diode], by simp [FMap.WF, FMap.keys, diode]⟩

/-- the hypotheses of the theorems are met: what is known after the story -/
example : regionMaterial story.reverse "diode" "left" = some "Nitride" ∧ regionMaterial story.reverse "diode" "right" = some "Silicon" ∧
    contactMaterial story.reverse "diode" "top" = some "Al" ∧ contactMaterial story.reverse "diode" "bot" = some "metal" ∧
    (described story.reverse "diode").isSome := by decide

example : Names story.reverse "diode" "left" "" (.region "diode" "left") := ⟨rfl, rfl, by decide, by decide, by decide⟩
example : Names story.reverse "diode" "" "top" (.contact "diode" "top") := ⟨rfl, rfl, by decide, rfl, by decide, by decide⟩

/-- the answers of the program itself -/
example : (command (run (start []) story) .getMaterial (texts [("device", "diode"), ("contact", "top")]) (.str "")).2 = .text "Al" := rfl
example : (command (run (start []) story) .getParameter (texts [("device", "diode"), ("region", "left"), ("name", "T")]) (.str "")).2
    = .object (.int 310) := rfl
example : (command (run (start []) story) .getParameter (texts [("name", "T")]) (.str "")).2 = .object (.int 300) := rfl
example : (command (run (start []) story) .regionList (texts [("device", "diode"), ("interface", "gap")]) (.str "")).2
    = .names ["right", "left"] := rfl
/-- telling the contact its material marked one model of its region -/
example : (run (start []) story).marks = [("diode", "right", "V")] := rfl

/-! ### Where the program does something else than expected -/

/-- F143: region and contact in one call: the message "region and contact cannot be specified at same time" is overwritten by what the look at the
region says; the call is accepted, the region gets the material and the contact none. -/
theorem both_accepted {dflt : FMap String Py} {es : List Event} (hm : MapsOk es) (g : String → String) (v : Py) (hd : g "device" ≠ "")
    (hr : g "region" ≠ "") (_hk : g "contact" ≠ "") (hreg : (regionMaterial es.reverse (g "device") (g "region")).isSome) :
    (command (run (start dflt) es) .setMaterial g v).2 = .empty ∧
    regionMaterial (.command .setMaterial g v :: es.reverse) (g "device") (g "region") = some (g "material") ∧
    contactMaterial (.command .setMaterial g v :: es.reverse) (g "device") (g "contact") = contactMaterial es.reverse (g "device") (g "contact") := by
  refine ⟨(set_material hm g v).1 ⟨.region _ _, rfl, rfl, hd, hr, hreg⟩, ?_, ?_⟩
  · simp only [regionMaterial]; rw [if_pos ⟨by trivial, by trivial, hd, by trivial, hr, hreg⟩]
  · simp only [contactMaterial]; rw [if_neg (fun x => hr x.2.2.2.1)]

/-- F144: neither region nor contact: `set_material` succeeds and sets nothing, `get_material` answers the empty text. -/
theorem neither_accepted {dflt : FMap String Py} {es : List Event} (hm : MapsOk es) (g : String → String) (v : Py) (hd : g "device" ≠ "")
    (hr : g "region" = "") (hk : g "contact" = "") (hdev : (described es.reverse (g "device")).isSome) :
    command (run (start dflt) es) .setMaterial g v = (run (start dflt) es, .empty) ∧
    command (run (start dflt) es) .getMaterial g v = (run (start dflt) es, .text "") := by
  have hn : Names es.reverse (g "device") (g "region") (g "contact") (.device (g "device")) := ⟨rfl, hd, hr, hk, hdev⟩
  refine ⟨?_, (get_material hm g v).1 _ hn⟩
  have he := (find_iff (shows_run dflt es hm) _ _ _).mpr ⟨_, hn⟩
  rw [cmd_setMaterial, if_neg (by simp [he]), hr, hk, find_device hd]
  cases (run (start dflt) es).devs.get (g "device") <;> rfl

/-- F145: a region's new material leaves all its models as they are, a contact's marks those displayed there. -/
theorem region_marks_nothing {dflt : FMap String Py} {es : List Event} (hm : MapsOk es) (g : String → String) (v : Py) (hr : g "region" ≠ "") :
    (step (run (start dflt) es) (.command .setMaterial g v)).marks = (run (start dflt) es).marks := by
  obtain ⟨new, h1, h2⟩ := marked (dflt := dflt) hm (.command .setMaterial g v)
  have : new = [] := by
    rw [List.eq_nil_iff_forall_not_mem]
    rintro ⟨d, r, m⟩ hx
    obtain ⟨g', v', dev, k, he, _, _, a, _⟩ := (h2 d r m).mp hx
    cases he; exact hr a
  rw [h1, this]; rfl

/-- F146: `get_dimension` declares `device` as an option that may be left out; a call without is refused all the same. -/
theorem dimension_needs_device (L : Lib) (W : World) (h : PyArg.getString L (.str "") = "") : ∃ e, call L W .dimension [] = (W, .badArgs e) := by
  rcases keywords L W .dimension [] (by simp) (by simp) with ⟨_, h⟩ | ⟨hg, g, v, hm, _⟩
  · exact h
  · exfalso
    have h1 := (checked (by simp) hg hm).1 rfl
    obtain ⟨x, hx, ex⟩ := hm.text "device" (by simp [opts])
    cases hx with
    | given _ hv => cases hv
    | default o ho hon _ =>
      simp only [opts, List.mem_cons, List.not_mem_nil, or_false] at ho
      subst ho
      exact h1.1 (by rw [← ex]; exact h)

end Verif.Mat
