import Verif.EqCmd.Lemmas

/-!
# C92: equations are as they were told, for every history of calls; C93: the numbers of equations
-/

namespace Verif.EqCmd

/-- the program shows the account -/
structure Shows (exact : Bool) (W : World) (A : Account) : Prop where
  bulk : ∀ d p r, region? W d p = some r → ShowsReg exact r d p (A .bulk d p)
  contact : ∀ d p c, contact? W d p = some c → ShowsMap c.eqs ContactEq.name (fun e => e.options d p) (A .contact d p)
  interface : ∀ d p i, interface? W d p = some i → ShowsMap i.eqs IfEq.name (fun e => e.options d p) (A .interface d p)

theorem fresh_shows {W : World} (h : Fresh W) : Shows true W (fun _ _ _ => []) := by
  obtain ⟨h1, h2, h3⟩ := h
  refine ⟨?_, ?_, ?_⟩
  · intro d p r hr
    obtain ⟨e1, e2, e3, e4⟩ := h1 d p r hr
    refine ⟨by rw [e1]; exact ShowsMap.nil, by rw [e2]; exact FMap.WF.nil, ?_, by rw [e4]; rfl, by rw [e1]; rfl, by simp, ?_⟩
    · intro n i; rw [e2]; simp
    · intro _ v n; rw [e3]; simp
  · intro d p c hc; rw [h2 d p c hc]; exact ShowsMap.nil
  · intro d p i hi; rw [h3 d p i hi]; exact ShowsMap.nil

/-! ### the program after a change at one place -/

theorem region_put {W : World} {d p : String} {r : Reg} (h : region? W d p = some r) (x : Reg) (d' p' : String) :
    region? (putRegion W d p x) d' p' = if d' = d ∧ p' = p then some x else region? W d' p' := by
  unfold region? at h ⊢
  unfold putRegion
  by_cases hd : d' = d
  · subst hd
    cases hw : W d' with
    | none => rw [hw] at h; cases h
    | some dev => by_cases hp : p' = p <;> simp [hw, hp]
  · simp [hd]

theorem contact_putRegion (W : World) (d p : String) (x : Reg) (d' p' : String) : contact? (putRegion W d p x) d' p' = contact? W d' p' := by
  unfold contact? putRegion
  by_cases hd : d' = d
  · subst hd; cases hw : W d' <;> simp [hw]
  · simp [hd]

theorem interface_putRegion (W : World) (d p : String) (x : Reg) (d' p' : String) :
    interface? (putRegion W d p x) d' p' = interface? W d' p' := by
  unfold interface? putRegion
  by_cases hd : d' = d
  · subst hd; cases hw : W d' <;> simp [hw]
  · simp [hd]

theorem contact_put {W : World} {d p : String} {c : Ctc} (h : contact? W d p = some c) (x : Ctc) (d' p' : String) :
    contact? (putContact W d p x) d' p' = if d' = d ∧ p' = p then some x else contact? W d' p' := by
  unfold contact? at h ⊢
  unfold putContact
  by_cases hd : d' = d
  · subst hd
    cases hw : W d' with
    | none => rw [hw] at h; cases h
    | some dev => by_cases hp : p' = p <;> simp [hw, hp]
  · simp [hd]

theorem region_putContact (W : World) (d p : String) (x : Ctc) (d' p' : String) : region? (putContact W d p x) d' p' = region? W d' p' := by
  unfold region? putContact
  by_cases hd : d' = d
  · subst hd; cases hw : W d' <;> simp [hw]
  · simp [hd]

theorem interface_putContact (W : World) (d p : String) (x : Ctc) (d' p' : String) :
    interface? (putContact W d p x) d' p' = interface? W d' p' := by
  unfold interface? putContact
  by_cases hd : d' = d
  · subst hd; cases hw : W d' <;> simp [hw]
  · simp [hd]

theorem interface_put {W : World} {d p : String} {c : Ifc} (h : interface? W d p = some c) (x : Ifc) (d' p' : String) :
    interface? (putInterface W d p x) d' p' = if d' = d ∧ p' = p then some x else interface? W d' p' := by
  unfold interface? at h ⊢
  unfold putInterface
  by_cases hd : d' = d
  · subst hd
    cases hw : W d' with
    | none => rw [hw] at h; cases h
    | some dev => by_cases hp : p' = p <;> simp [hw, hp]
  · simp [hd]

theorem region_putInterface (W : World) (d p : String) (x : Ifc) (d' p' : String) : region? (putInterface W d p x) d' p' = region? W d' p' := by
  unfold region? putInterface
  by_cases hd : d' = d
  · subst hd; cases hw : W d' <;> simp [hw]
  · simp [hd]

theorem contact_putInterface (W : World) (d p : String) (x : Ifc) (d' p' : String) :
    contact? (putInterface W d p x) d' p' = contact? W d' p' := by
  unfold contact? putInterface
  by_cases hd : d' = d
  · subst hd; cases hw : W d' <;> simp [hw]
  · simp [hd]

theorem Shows.putRegion {exact exact' : Bool} {W : World} {A : Account} (h : Shows exact W A) {d p : String} {r x : Reg} {l}
    (hr : region? W d p = some r) (hx : ShowsReg exact' x d p l) (he : exact' = true → exact = true) :
    Shows exact' (putRegion W d p x) (A.put .bulk d p l) := by
  refine ⟨?_, ?_, ?_⟩
  · intro d' p' r' hr'
    rw [region_put hr] at hr'
    unfold Account.put
    by_cases hh : d' = d ∧ p' = p
    · rw [if_pos hh] at hr'; cases hr'
      rw [if_pos ⟨rfl, hh⟩]
      obtain ⟨rfl, rfl⟩ := hh
      exact hx
    · rw [if_neg hh] at hr'
      rw [if_neg (fun e => hh e.2)]
      exact (h.bulk d' p' r' hr').weaken exact' he
  · intro d' p' c hc
    rw [contact_putRegion] at hc
    simpa [Account.put] using h.contact d' p' c hc
  · intro d' p' i hi
    rw [interface_putRegion] at hi
    simpa [Account.put] using h.interface d' p' i hi

theorem Shows.putContact {exact : Bool} {W : World} {A : Account} (h : Shows exact W A) {d p : String} {c x : Ctc} {l}
    (hr : contact? W d p = some c) (hx : ShowsMap x.eqs ContactEq.name (fun e => e.options d p) l) :
    Shows exact (putContact W d p x) (A.put .contact d p l) := by
  refine ⟨?_, ?_, ?_⟩
  · intro d' p' r hr
    rw [region_putContact] at hr
    simpa [Account.put] using h.bulk d' p' r hr
  · intro d' p' r' hr'
    rw [contact_put hr] at hr'
    unfold Account.put
    by_cases hh : d' = d ∧ p' = p
    · rw [if_pos hh] at hr'; cases hr'
      rw [if_pos ⟨rfl, hh⟩]
      obtain ⟨rfl, rfl⟩ := hh
      exact hx
    · rw [if_neg hh] at hr'
      rw [if_neg (fun e => hh e.2)]
      exact h.contact d' p' r' hr'
  · intro d' p' i hi
    rw [interface_putContact] at hi
    simpa [Account.put] using h.interface d' p' i hi

theorem Shows.putInterface {exact : Bool} {W : World} {A : Account} (h : Shows exact W A) {d p : String} {c x : Ifc} {l}
    (hr : interface? W d p = some c) (hx : ShowsMap x.eqs IfEq.name (fun e => e.options d p) l) :
    Shows exact (putInterface W d p x) (A.put .interface d p l) := by
  refine ⟨?_, ?_, ?_⟩
  · intro d' p' r hr
    rw [region_putInterface] at hr
    simpa [Account.put] using h.bulk d' p' r hr
  · intro d' p' i hi
    rw [contact_putInterface] at hi
    simpa [Account.put] using h.contact d' p' i hi
  · intro d' p' r' hr'
    rw [interface_put hr] at hr'
    unfold Account.put
    by_cases hh : d' = d ∧ p' = p
    · rw [if_pos hh] at hr'; cases hr'
      rw [if_pos ⟨rfl, hh⟩]
      obtain ⟨rfl, rfl⟩ := hh
      exact hx
    · rw [if_neg hh] at hr'
      rw [if_neg (fun e => hh e.2)]
      exact h.interface d' p' r' hr'

/-! ### what is told is what was given -/

theorem updateType_text {s : String} {u : UpdateType} (h : updateType s = some u) : u.text = s := by
  unfold updateType at h
  split at h
  · cases h; symm; assumption
  · split at h
    · cases h; symm; assumption
    · split at h
      · cases h; symm; assumption
      · cases h

theorem updateType_none {s : String} : updateType s = none ↔ s ∉ ["default", "log_damp", "positive"] := by
  unfold updateType
  split
  · simp [*]
  · split
    · simp [*]
    · split
      · simp [*]
      · simp [*]

theorem ifType_text {s : String} (h : ifType s ≠ .unknown) : (ifType s).text = s := by
  unfold ifType at h ⊢
  split
  · symm; assumption
  · split
    · symm; assumption
    · split
      · symm; assumption
      · rename_i h1 h2 h3; simp [h1, h2, h3] at h

theorem ifType_unknown {s : String} : ifType s = .unknown ↔ s ∉ ["continuous", "fluxterm", "hybrid"] := by
  unfold ifType
  split
  · simp [*]
  · split
    · simp [*]
    · split
      · simp [*]
      · simp [*]

theorem bulk_dict (g : String → String) (u : UpdateType) (hu : u.text = g "variable_update") :
    let e := exprEquation (g "name") (g "variable_name") (g "node_model") (g "edge_model") (g "edge_volume_model") (g "element_model")
      (g "volume_node0_model") (g "volume_node1_model") (g "time_node_model") u
    reads (e.options (g "device") (g "region")) = dict .bulk g ∧ ((e.options (g "device") (g "region")).map (·.1)).Nodup := by
  intro e
  apply dict_of
  simp [e, exprEquation, BulkEq.options, Kind.keywords, hu]

theorem contact_dict (g : String → String) :
    let e := exprContactEquation (g "name") (g "circuit_node") (g "node_model") (g "edge_model") (g "edge_volume_model") (g "element_model")
      (g "volume_node0_model") (g "volume_node1_model") (g "node_current_model") (g "edge_current_model") (g "element_current_model")
      (g "node_charge_model") (g "edge_charge_model") (g "element_charge_model")
    reads (e.options (g "device") (g "contact")) = dict .contact g ∧ ((e.options (g "device") (g "contact")).map (·.1)).Nodup := by
  intro e
  apply dict_of
  simp [e, exprContactEquation, ContactEq.options, Kind.keywords]

theorem interface_dict (g : String → String) (h : ifType (g "type") ≠ .unknown) :
    let e := interfaceExprEquation (g "name") (g "name0") (g "name1") (g "interface_model") (ifType (g "type"))
    reads (e.options (g "device") (g "interface")) = dict .interface g ∧ ((e.options (g "device") (g "interface")).map (·.1)).Nodup := by
  intro e
  apply dict_of
  have := ifType_text h
  simp [e, interfaceExprEquation, IfEq.options, Kind.keywords, this]

/-! ### refusals -/

theorem append_ne {a b : String} : a ++ b ≠ "" ↔ a ≠ "" ∨ b ≠ "" := by
  rw [Ne, String.append_eq_empty_iff]; tauto

theorem optionalNode_ne {r : Reg} {d p m : String} : optionalNode r d p m ≠ "" ↔ m ≠ "" ∧ r.hasNode m = false := by
  unfold optionalNode
  split
  · rename_i h
    constructor
    · intro h'; exact absurd rfl h'
    · rintro ⟨h1, h2⟩
      rcases h with h | h
      · exact absurd h h1
      · rw [h2] at h; cases h
  · rename_i h
    rw [not_or] at h
    constructor
    · intro _; exact ⟨h.1, by simpa using h.2⟩
    · intro _; simp [String.append_eq_empty_iff]

theorem optionalEdge_ne {r : Reg} {d p m : String} : optionalEdge r d p m ≠ "" ↔ m ≠ "" ∧ r.hasEdge m = false := by
  unfold optionalEdge
  split
  · rename_i h
    constructor
    · intro h'; exact absurd rfl h'
    · rintro ⟨h1, h2⟩
      rcases h with h | h
      · exact absurd h h1
      · rw [h2] at h; cases h
  · rename_i h
    rw [not_or] at h
    constructor
    · intro _; exact ⟨h.1, by simpa using h.2⟩
    · intro _; simp [String.append_eq_empty_iff]

theorem interfaceModel_ne {i : Ifc} {d p m : String} : interfaceModel i d p m ≠ "" ↔ m = "" ∨ i.hasModel m = false := by
  unfold interfaceModel
  split
  · rename_i h
    constructor
    · intro _; exact .inl h
    · intro _; simp [String.append_eq_empty_iff]
  · rename_i h
    split
    · rename_i h'; simp [h, h']
    · rename_i h'; simp [String.append_eq_empty_iff, h']

end Verif.EqCmd
