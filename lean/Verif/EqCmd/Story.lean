import Verif.EqCmd.Props

/-!
# C92 for every history of calls
-/

namespace Verif.EqCmd

theorem bulk_refused {W : World} {g : String → String} {r : Reg} (hr : region? W (g "device") (g "region") = some r) :
    Refused W g .bulk ↔ updateType (g "variable_update") = none ∨
      optionalNode r (g "device") (g "region") (g "node_model") ++ optionalNode r (g "device") (g "region") (g "time_node_model") ++
        optionalEdge r (g "device") (g "region") (g "edge_model") ++ optionalEdge r (g "device") (g "region") (g "edge_volume_model") ≠ "" := by
  rw [append_ne, append_ne, append_ne, optionalNode_ne, optionalNode_ne, optionalEdge_ne, optionalEdge_ne, updateType_none]
  constructor
  · intro h
    cases h with
    | nodeModel n hn h r' hr' hm =>
      rw [hr] at hr'; cases hr'
      rcases hn with rfl | rfl
      · exact .inr (.inl (.inl (.inl ⟨h, hm⟩)))
      · exact .inr (.inl (.inl (.inr ⟨h, hm⟩)))
    | edgeModel n hn h r' hr' hm =>
      rw [hr] at hr'; cases hr'
      rcases hn with rfl | rfl
      · exact .inr (.inl (.inr ⟨h, hm⟩))
      · exact .inr (.inr ⟨h, hm⟩)
    | update h => exact .inl h
  · rintro (h | ((⟨h1, h2⟩ | ⟨h1, h2⟩) | ⟨h1, h2⟩) | ⟨h1, h2⟩)
    · exact .update h
    · exact .nodeModel _ (.inl rfl) h1 r hr h2
    · exact .nodeModel _ (.inr rfl) h1 r hr h2
    · exact .edgeModel _ (.inl rfl) h1 r hr h2
    · exact .edgeModel _ (.inr rfl) h1 r hr h2

theorem interface_refused {W : World} {g : String → String} {i : Ifc} (hi : interface? W (g "device") (g "interface") = some i) :
    Refused W g .interface ↔ interfaceModel i (g "device") (g "interface") (g "interface_model") ≠ "" ∨ ifType (g "type") = .unknown := by
  rw [interfaceModel_ne, ifType_unknown]
  constructor
  · intro h
    cases h with
    | interfaceModel i' hi' h => rw [hi] at hi'; cases hi'; exact .inl h
    | type h => exact .inr h
  · rintro (h | h)
    · exact .interfaceModel i hi h
    · exact .type h

theorem contact_refused {W : World} {g : String → String} : ¬ Refused W g .contact := by rintro ⟨⟩

theorem put_same (A : Account) (k : Kind) (d p : String) : A.put k d p (A k d p) = A := by
  funext k' d' p'
  unfold Account.put
  split
  · rename_i h; obtain ⟨rfl, rfl, rfl⟩ := h; rfl
  · rfl

open Classical in
theorem step_bulk {exact : Bool} {W : World} {A : Account} (h : Shows exact W A) (g : String → String) (hn : g "name" ≠ "") (v : Verb) :
    ∃ A' exact', Does exact W A g .bulk v A' (act (cmdOf .bulk v) W g).2 exact' ∧ Shows exact' (act (cmdOf .bulk v) W g).1 A' := by
  cases hr : region? W (g "device") (g "region") with
  | none =>
    have ht : ¬ There W (g "device") (g (Kind.place .bulk)) .bulk := by rintro ⟨r, h'⟩; rw [show Kind.place .bulk = "region" from rfl, hr] at h'; cases h'
    refine ⟨A, exact, ?_, ?_⟩
    · refine .away v ht _ ?_
      cases v <;> simp [cmdOf, act, createEquation, equationList, deleteEquation, hr]
    · cases v <;> simpa [cmdOf, act, createEquation, equationList, deleteEquation, hr] using h
  | some r =>
    have ht : There W (g "device") (g (Kind.place .bulk)) .bulk := ⟨r, hr⟩
    have hs := h.bulk _ _ _ hr
    cases v with
    | create =>
      have href := bulk_refused hr
      simp only [cmdOf, act]
      unfold createEquation
      simp only [hr]
      cases hu : updateType (g "variable_update") with
      | none =>
        refine ⟨A, exact, ?_, h⟩
        exact .refused ht (href.mpr (.inl hu)) _ (by simp [String.append_eq_empty_iff])
      | some u =>
        dsimp only
        rw [hu] at href
        split
        · rename_i he
          exact ⟨A, exact, .refused ht (href.mpr (.inr he)) _ he, h⟩
        · rename_i he
          have hok : ¬ Refused W g .bulk := by rw [href]; rintro (h' | h') <;> [cases h'; exact he h']
          generalize hadd : r.add (exprEquation (g "name") (g "variable_name") (g "node_model") (g "edge_model") (g "edge_volume_model")
            (g "element_model") (g "volume_node0_model") (g "volume_node1_model") (g "time_node_model") u) = q
          cases q with
          | none =>
            exact ⟨A, exact, .used rfl ht hok (fun hex => hs.add_none _ hadd hex), h⟩
          | some r' =>
            have hd := bulk_dict g u (updateType_text hu)
            have := hs.add _ (dict .bulk g) hd hn hadd (decide (exact = true ∧ (Kind.bulk = .bulk → Keeps A g)))
              (fun e => by
                have e := of_decide_eq_true e
                exact ⟨e.1, fun y hy => e.2 rfl y hy⟩)
            refine ⟨_, decide (exact = true ∧ (Kind.bulk = .bulk → Keeps A g)), .created ht hok (fun _ hex => this.2 hex) _ (by simp), ?_⟩
            exact h.putRegion hr this.1 (fun e => (of_decide_eq_true e).1)
    | list =>
      simp only [cmdOf, act]
      unfold equationList
      simp only [hr, hs.list]
      exact ⟨A, exact, .listBulk rfl ht, h⟩
    | delete =>
      simp only [cmdOf, act]
      unfold deleteEquation
      simp only [hr]
      cases hg : r.eqs.get (g "name") with
      | none => exact ⟨A, exact, .unknown _ (.inl rfl) ht (hs.eqs.get_none hg) _ (by simp [String.append_eq_empty_iff]), h⟩
      | some e =>
        simp only [if_true]
        have hm := (hs.eqs.get_some hg).1
        rcases hs.delete hg with ⟨r', h1, h2⟩ | ⟨h1, h2⟩
        · rw [h1]
          exact ⟨_, exact, .deleted ht hm, h.putRegion hr h2 id⟩
        · rw [h1]
          exact ⟨A, exact, .lost rfl ht hm h2, h⟩
    | tell =>
      simp only [cmdOf, act]
      unfold deleteEquation
      simp only [hr]
      cases hg : r.eqs.get (g "name") with
      | none => exact ⟨A, exact, .unknown _ (.inr rfl) ht (hs.eqs.get_none hg) _ (by simp [String.append_eq_empty_iff]), h⟩
      | some e =>
        simp only [Bool.false_eq_true, if_false]
        obtain ⟨_, _, x, hx, hl, hnd⟩ := hs.eqs.get_some hg
        exact ⟨A, exact, .tells ht x hx _ hl hnd, h⟩

theorem step_contact {exact : Bool} {W : World} {A : Account} (h : Shows exact W A) (g : String → String) (v : Verb) :
    ∃ A' exact', Does exact W A g .contact v A' (act (cmdOf .contact v) W g).2 exact' ∧ Shows exact' (act (cmdOf .contact v) W g).1 A' := by
  cases hr : contact? W (g "device") (g "contact") with
  | none =>
    have ht : ¬ There W (g "device") (g (Kind.place .contact)) .contact := by
      rintro ⟨r, h'⟩; rw [show Kind.place .contact = "contact" from rfl, hr] at h'; cases h'
    refine ⟨A, exact, ?_, ?_⟩
    · refine .away v ht _ ?_
      cases v <;> simp [cmdOf, act, createContactEquation, contactEquationList, deleteContactEquation, hr]
    · cases v <;> simpa [cmdOf, act, createContactEquation, contactEquationList, deleteContactEquation, hr] using h
  | some c =>
    have ht : There W (g "device") (g (Kind.place .contact)) .contact := ⟨c, hr⟩
    have hs := h.contact _ _ _ hr
    cases v with
    | create =>
      simp only [cmdOf, act]
      unfold createContactEquation
      simp only [hr]
      refine ⟨_, exact, .created ht contact_refused (fun e => by cases e) exact (by simp), ?_⟩
      exact h.putContact hr (hs.set _ _ (contact_dict g))
    | list =>
      simp only [cmdOf, act]
      unfold contactEquationList
      simp only [hr]
      exact ⟨A, exact, .listSorted (by simp) ht _ hs.sorted.1 hs.sorted.2, h⟩
    | delete =>
      simp only [cmdOf, act]
      unfold deleteContactEquation
      simp only [hr]
      cases hg : c.eqs.get (g "name") with
      | none => exact ⟨A, exact, .unknown _ (.inl rfl) ht (hs.get_none hg) _ (by simp [String.append_eq_empty_iff]), h⟩
      | some e =>
        simp only [if_true]
        obtain ⟨hm, hen, _⟩ := hs.get_some hg
        rw [hen]
        exact ⟨_, exact, .deleted ht hm, h.putContact hr (hs.erase _)⟩
    | tell =>
      simp only [cmdOf, act]
      unfold deleteContactEquation
      simp only [hr]
      cases hg : c.eqs.get (g "name") with
      | none => exact ⟨A, exact, .unknown _ (.inr rfl) ht (hs.get_none hg) _ (by simp [String.append_eq_empty_iff]), h⟩
      | some e =>
        simp only [Bool.false_eq_true, if_false]
        obtain ⟨_, _, x, hx, hl, hnd⟩ := hs.get_some hg
        exact ⟨A, exact, .tells ht x hx _ hl hnd, h⟩

theorem step_interface {exact : Bool} {W : World} {A : Account} (h : Shows exact W A) (g : String → String) (v : Verb) :
    ∃ A' exact', Does exact W A g .interface v A' (act (cmdOf .interface v) W g).2 exact' ∧
      Shows exact' (act (cmdOf .interface v) W g).1 A' := by
  cases hr : interface? W (g "device") (g "interface") with
  | none =>
    have ht : ¬ There W (g "device") (g (Kind.place .interface)) .interface := by
      rintro ⟨r, h'⟩; rw [show Kind.place .interface = "interface" from rfl, hr] at h'; cases h'
    refine ⟨A, exact, ?_, ?_⟩
    · refine .away v ht _ ?_
      cases v <;> simp [cmdOf, act, createInterfaceEquation, interfaceEquationList, deleteInterfaceEquation, hr]
    · cases v <;> simpa [cmdOf, act, createInterfaceEquation, interfaceEquationList, deleteInterfaceEquation, hr] using h
  | some c =>
    have ht : There W (g "device") (g (Kind.place .interface)) .interface := ⟨c, hr⟩
    have hs := h.interface _ _ _ hr
    cases v with
    | create =>
      have href := interface_refused hr
      simp only [cmdOf, act]
      unfold createInterfaceEquation
      simp only [hr]
      by_cases he : interfaceModel c (g "device") (g "interface") (g "interface_model") ++
          (if ifType (g "type") = .unknown then "-type must be specified as \"continuous\", \"fluxterm\", or \"hybrid\"\n" else "") ≠ ""
      · rw [if_pos he]
        refine ⟨A, exact, .refused ht ?_ _ he, h⟩
        rw [append_ne] at he
        rw [href]
        refine he.imp_right ?_
        intro h'
        by_cases hty : ifType (g "type") = .unknown
        · exact hty
        · rw [if_neg hty] at h'; exact absurd rfl h'
      · rw [if_neg he]
        rw [append_ne, not_or, not_not, not_not] at he
        have hty : ifType (g "type") ≠ .unknown := by
          intro hty
          have := he.2
          rw [if_pos hty] at this
          simp at this
        have hok : ¬ Refused W g .interface := by
          rw [href]
          rintro (h' | h')
          · exact h' he.1
          · exact hty h'
        refine ⟨_, exact, .created ht hok (fun e => by cases e) exact (by simp), ?_⟩
        exact h.putInterface hr (hs.set _ _ (interface_dict g hty))
    | list =>
      simp only [cmdOf, act]
      unfold interfaceEquationList
      simp only [hr]
      exact ⟨A, exact, .listSorted (by simp) ht _ hs.sorted.1 hs.sorted.2, h⟩
    | delete =>
      simp only [cmdOf, act]
      unfold deleteInterfaceEquation
      simp only [hr]
      cases hg : c.eqs.get (g "name") with
      | none => exact ⟨A, exact, .unknown _ (.inl rfl) ht (hs.get_none hg) _ (by simp [String.append_eq_empty_iff]), h⟩
      | some e =>
        simp only [if_true]
        obtain ⟨hm, hen, _⟩ := hs.get_some hg
        rw [hen]
        exact ⟨_, exact, .deleted ht hm, h.putInterface hr (hs.erase _)⟩
    | tell =>
      simp only [cmdOf, act]
      unfold deleteInterfaceEquation
      simp only [hr]
      cases hg : c.eqs.get (g "name") with
      | none => exact ⟨A, exact, .unknown _ (.inr rfl) ht (hs.get_none hg) _ (by simp [String.append_eq_empty_iff]), h⟩
      | some e =>
        simp only [Bool.false_eq_true, if_false]
        obtain ⟨_, _, x, hx, hl, hnd⟩ := hs.get_some hg
        exact ⟨A, exact, .tells ht x hx _ hl hnd, h⟩

/-- C92: one call, from a program that shows an account -/
theorem step {exact : Bool} {W : World} {A : Account} (h : Shows exact W A) (c : Call) (hn : c.texts "name" ≠ "") :
    ∃ A' exact', Does exact W A c.texts c.kind c.verb A' (act (cmdOf c.kind c.verb) W c.texts).2 exact' ∧
      Shows exact' (act (cmdOf c.kind c.verb) W c.texts).1 A' := by
  obtain ⟨k, v, g⟩ := c
  cases k with
  | bulk => exact step_bulk h g hn v
  | contact => exact step_contact h g v
  | interface => exact step_interface h g v

theorem story_of {exact : Bool} {W : World} {A : Account} (h : Shows exact W A) (cs : List Call) (hn : ∀ c ∈ cs, c.texts "name" ≠ "") :
    Story exact W A cs := by
  induction cs generalizing exact W A with
  | nil => exact .done _ _ _
  | cons c cs ih =>
    obtain ⟨A', exact', h1, h2⟩ := step h c (hn c (by simp))
    exact .call _ exact' _ _ A' c cs h1 (ih h2 (fun c' hc => hn c' (by simp [hc])))

/-- C92: after every history of equation commands on a new program every command answers by the account of what was told -/
theorem equations_story {W : World} (h : Fresh W) (cs : List Call) (hn : ∀ c ∈ cs, c.texts "name" ≠ "") :
    Story true W (fun _ _ _ => []) cs := story_of (fresh_shows h) cs hn

/-- the program and the account after a history -/
inductive After : Bool → World → Account → List Call → Bool → World → Account → Prop
  | done (exact W A) : After exact W A [] exact W A
  | call (exact exact' exact'' W W'' A A' A'') (c : Call) (cs)
      (h : Does exact W A c.texts c.kind c.verb A' (act (cmdOf c.kind c.verb) W c.texts).2 exact')
      (hs : After exact' (act (cmdOf c.kind c.verb) W c.texts).1 A' cs exact'' W'' A'') : After exact W A (c :: cs) exact'' W'' A''

/-- what the story is about is there: after every history the program shows the account -/
theorem after {exact : Bool} {W : World} {A : Account} (h : Shows exact W A) (cs : List Call) (hn : ∀ c ∈ cs, c.texts "name" ≠ "") :
    ∃ exact' W' A', After exact W A cs exact' W' A' ∧ Shows exact' W' A' := by
  induction cs generalizing exact W A with
  | nil => exact ⟨_, _, _, .done _ _ _, h⟩
  | cons c cs ih =>
    obtain ⟨A', exact', h1, h2⟩ := step h c (hn c (by simp))
    obtain ⟨e, W', A'', h3, h4⟩ := ih h2 (fun c' hc => hn c' (by simp [hc]))
    exact ⟨e, W', A'', .call _ exact' _ _ _ _ A' _ c cs h1 h3, h4⟩

/-! ### telling back -/

/-- C92: `get_equation_command` and its likes tell what is in the account -/
theorem told_again {W : World} {A : Account} {exact : Bool} (h : Shows exact W A) (k : Kind) (d p n : String) (x : Dict) (hx : (n, x) ∈ A k d p)
    (ht : There W d p k) : ∃ m, (act (cmdOf k .tell) W (fun o => if o = "device" then d else if o = k.place then p else n)).2 = .map m ∧
      reads m = x ∧ (m.map (·.1)).Nodup := by
  cases k with
  | bulk =>
    obtain ⟨r, hr⟩ := ht
    obtain ⟨e, h1, _, h2, h3⟩ := (h.bulk d p r hr).eqs.told n x hx
    refine ⟨_, ?_, h2, h3⟩
    simp [cmdOf, act, deleteEquation, Kind.place, hr, h1]
  | contact =>
    obtain ⟨r, hr⟩ := ht
    obtain ⟨e, h1, _, h2, h3⟩ := (h.contact d p r hr).told n x hx
    refine ⟨_, ?_, h2, h3⟩
    simp [cmdOf, act, deleteContactEquation, Kind.place, hr, h1]
  | interface =>
    obtain ⟨r, hr⟩ := ht
    obtain ⟨e, h1, _, h2, h3⟩ := (h.interface d p r hr).told n x hx
    refine ⟨_, ?_, h2, h3⟩
    simp [cmdOf, act, deleteInterfaceEquation, Kind.place, hr, h1]

theorem dict_mem {k : Kind} {n : String} (hn : n ∈ k.keywords) (g : String → String) :
    dict k g n = some (if k = .interface ∧ (n = "name0" ∨ n = "name1") ∧ g n = "" then g "name" else g n) := if_pos hn

/-- C92: the dictionary of a dictionary is itself: an equation created from what is told of an equation is told in the same way -/
theorem dict_again (k : Kind) (g : String → String) : dict k (fun n => (dict k g n).getD "") = dict k g := by
  have hname : "name" ∈ k.keywords := by cases k <;> simp [Kind.keywords]
  have hnm : dict k g "name" = some (g "name") := by
    rw [dict_mem hname, if_neg (by simp)]
  funext n
  by_cases hn : n ∈ k.keywords
  · rw [dict_mem hn]
    rw [hnm, dict_mem hn]
    simp only [Option.getD_some]
    congr 1
    by_cases h : k = .interface ∧ (n = "name0" ∨ n = "name1") ∧ g n = ""
    · rw [if_pos h]
      split <;> rfl
    · rw [if_neg h, if_neg h]
  · unfold dict; rw [if_neg hn, if_neg hn]

/-- C92: so that creating an equation with the texts told of it leaves the account as it is -/
theorem told_same {l : List (String × Dict)} (hl : (l.map (·.1)).Nodup) {n : String} {x : Dict} (h : (n, x) ∈ l) : told l n x = l := by
  unfold told
  rw [if_pos (List.mem_map.mpr ⟨_, h, rfl⟩)]
  conv_rhs => rw [← List.map_id l]
  apply List.map_congr_left
  rintro ⟨n', x'⟩ hq
  by_cases hn : n' = n
  · subst hn
    rw [if_pos rfl, unique hl h hq]; rfl
  · rw [if_neg hn]; rfl

end Verif.EqCmd
