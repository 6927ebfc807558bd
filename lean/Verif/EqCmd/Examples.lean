import Verif.EqCmd.Cmds

/-!
# Concrete cases of C92 and C93, and where the program does something else than a user expects
-/

namespace Verif.EqCmd

/-- a device with a region of three nodes, a contact and an interface -/
def newReg : Reg := ⟨[], [], [], 0, some 10, 3, fun m => m = "charge", fun m => m = "flux"⟩
def newDev : Dev :=
  ⟨fun r => if r = "bulk" then some newReg else none, fun c => if c = "top" then some ⟨[]⟩ else none,
    fun i => if i = "gap" then some ⟨[], fun m => m = "jump"⟩ else none⟩
def newWorld : World := fun d => if d = "diode" then some newDev else none

theorem new_fresh : Fresh newWorld := by
  refine ⟨?_, ?_, ?_⟩
  · intro d p r h
    unfold region? newWorld at h
    split at h
    · simp only [Option.bind_some, newDev] at h
      split at h
      · cases h; exact ⟨rfl, rfl, rfl, rfl⟩
      · cases h
    · cases h
  · intro d p r h
    unfold contact? newWorld at h
    split at h
    · simp only [Option.bind_some, newDev] at h
      split at h
      · cases h; rfl
      · cases h
    · cases h
  · intro d p r h
    unfold interface? newWorld at h
    split at h
    · simp only [Option.bind_some, newDev] at h
      split at h
      · cases h; rfl
      · cases h
    · cases h

/-- the texts of a call from a list, defaults otherwise -/
def texts (l : List (String × String)) : String → String := fun n =>
  (l.lookup n).getD (if n = "variable_update" then "default" else "")

def bulkTexts (l : List (String × String)) : String → String := texts ([("device", "diode"), ("region", "bulk")] ++ l)

/-- C92 applies: two equations, the second deleted -/
example : Story true newWorld (fun _ _ _ => [])
    [⟨.bulk, .create, bulkTexts [("name", "n"), ("variable_name", "N"), ("node_model", "charge")]⟩,
     ⟨.bulk, .create, bulkTexts [("name", "a"), ("variable_name", "A")]⟩,
     ⟨.bulk, .delete, bulkTexts [("name", "n")]⟩] := by
  apply equations_story new_fresh
  intro c hc
  simp only [List.mem_cons, List.not_mem_nil, or_false] at hc
  rcases hc with rfl | rfl | rfl <;> simp [bulkTexts, texts, List.lookup]

/-- the region after an equation, another, and the first again with another variable -/
def r1 : Option Reg := newReg.add (exprEquation "n" "N" "charge" "" "" "" "" "" "" .default)
def r2 : Option Reg := r1.bind fun r => r.add (exprEquation "a" "A" "" "flux" "" "" "" "" "" .positive)
def r3 : Option Reg := r2.bind fun r => r.add (exprEquation "n" "M" "" "" "" "" "" "" "" .default)

/-- the equations are listed in the order of their creation -/
example : (r2.map fun r => (r.idx.get "n", r.idx.get "a", r.num)) = some (some 0, some 1, 2) := by decide

/-- what is told of the second -/
example : (r2.bind fun r => (r.eqs.get "a").map fun e => e.options "diode" "bulk") = some
    [("device", "diode"), ("region", "bulk"), ("name", "a"), ("variable_name", "A"), ("variable_update", "positive"), ("node_model", ""),
     ("edge_model", "flux"), ("edge_volume_model", ""), ("element_model", ""), ("volume_node0_model", ""), ("volume_node1_model", ""),
     ("time_node_model", "")] := by decide

/-- After an equation is told again with another variable its old variable is still taken: no equation can be created for it (`used`) though no
equation has it. -/
theorem stale_variable : (∃ r, r3 = some r ∧ r.add (exprEquation "b" "N" "" "" "" "" "" "" "" .default) = none ∧
    ∀ n e, r.eqs.get n = some e → e.var ≠ "N") := by
  refine ⟨_, rfl, by decide, ?_⟩
  intro n e h
  have hr : ∀ (m : FMap String BulkEq), m.get n = some e → ∃ p ∈ m, p.2 = e := by
    intro m
    induction m with
    | nil => intro h; cases h
    | cons p m ih =>
      intro h
      simp only [FMap.get] at h
      split at h
      · cases h; exact ⟨p, by simp, rfl⟩
      · obtain ⟨q, hq, he⟩ := ih h; exact ⟨q, by simp [hq], he⟩
  obtain ⟨p, hp, rfl⟩ := hr _ h
  clear h hr
  revert p
  decide

/-- and an equation whose variable another one took cannot be deleted once that one is gone (`lost`) -/
theorem lost_equation : ∃ r r', (r1.bind fun r => (r.add (exprEquation "a" "A" "" "" "" "" "" "" "" .default)).bind fun r =>
      r.add (exprEquation "a" "N" "" "" "" "" "" "" "" .default)) = some r ∧
    r.delete (exprEquation "a" "N" "" "" "" "" "" "" "" .default) = some r' ∧
    r'.delete (exprEquation "n" "N" "charge" "" "" "" "" "" "" .default) = none ∧
    (r'.eqs.get "n").isSome = true := ⟨_, _, rfl, rfl, by decide, by decide⟩

/-- C93 applies: the numbers of an equation of a region whose first number is 10 -/
def g93 : String → String := bulkTexts [("name", "n"), ("variable_name", "N"), ("node_model", "charge")]

theorem numbers_example : ((equationNumbers (createEquation newWorld g93).1 (bulkTexts [("variable", "N")])).2 = .numbers [10, 11, 12]) := by
  have h1 : region? newWorld "diode" "bulk" = some newReg := rfl
  have h2 : (createEquation newWorld g93).1 = putRegion newWorld "diode" "bulk"
      ⟨[("n", exprEquation "n" "N" "charge" "" "" "" "" "" "" .default)], [("n", 0)], [("N", "n")], 1, some 10, 3, fun m => m = "charge",
        fun m => m = "flux"⟩ := by
    simp [createEquation, g93, bulkTexts, texts, List.lookup, h1, optionalNode, optionalEdge, newReg, updateType, Reg.add, FMap.get, FMap.has,
      FMap.set, FMap.erase, exprEquation]
  rw [h2]
  unfold equationNumbers
  simp only [show bulkTexts [("variable", "N")] "variable" = "N" by simp [bulkTexts, texts, List.lookup],
    show bulkTexts [("variable", "N")] "equation" = "" by simp [bulkTexts, texts, List.lookup],
    show bulkTexts [("variable", "N")] "device" = "diode" by simp [bulkTexts, texts, List.lookup],
    show bulkTexts [("variable", "N")] "region" = "bulk" by simp [bulkTexts, texts, List.lookup], region_put h1]
  simp [FMap.get, List.range, List.range.loop]

/-- an unknown variable is an error without any words -/
theorem no_words : (equationNumbers newWorld (bulkTexts [("variable", "N")])).2 = .err "" := by
  have h1 : region? newWorld "diode" "bulk" = some newReg := rfl
  unfold equationNumbers
  simp [bulkTexts, texts, List.lookup, h1, newReg, FMap.get]

/-- a contact equation may name models that are nowhere; an interface equation without the optional `interface_model` is refused -/
theorem contact_unchecked : (createContactEquation newWorld (texts [("device", "diode"), ("contact", "top"), ("name", "n"),
    ("node_model", "nowhere")])).2 = .empty := by
  have h1 : contact? newWorld "diode" "top" = some ⟨[]⟩ := rfl
  unfold createContactEquation
  simp [texts, List.lookup, h1]

theorem element_unchecked : (createEquation newWorld (bulkTexts [("name", "n"), ("variable_name", "N"), ("element_model", "nowhere")])).2 = .empty := by
  have h1 : region? newWorld "diode" "bulk" = some newReg := rfl
  simp [createEquation, bulkTexts, texts, List.lookup, h1, optionalNode, optionalEdge, newReg, updateType, Reg.add, FMap.get, FMap.has,
      FMap.set, FMap.erase, exprEquation]

theorem optional_required : Refused newWorld (texts [("device", "diode"), ("interface", "gap"), ("name", "n"), ("type", "continuous")]) .interface :=
  .interfaceModel ⟨[], fun m => m = "jump"⟩ rfl (.inl (by simp [texts, List.lookup]))

end Verif.EqCmd
