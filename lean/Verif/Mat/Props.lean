import Verif.Mat.Spec

/-!
# C95: materials, parameters and lists are as they were told
-/
namespace Verif.Mat
open Verif
open Verif.PyArg (Py Lib)
open Verif.EqCmd (sortedKeys onRegion onContact)
open Verif.Mat.Spec

/-! ### The state and the history -/

/-- a device in the program and its description -/
structure ShowsDev (dev dev0 : Dev) (rm cm : String → Option String) : Prop where
  dim : dev.dim = dev0.dim
  ifs : dev.interfaces = dev0.interfaces
  rkeys : dev.regions.keys = dev0.regions.keys
  ckeys : dev.contacts.keys = dev0.contacts.keys
  rwf : dev.regions.WF
  cwf : dev.contacts.WF
  iwf : dev.interfaces.WF
  rmat : ∀ r, (dev.regions.get r).map (·.material) = rm r
  cmat : ∀ k, (dev.contacts.get k).map (·.material) = cm k
  rmod : ∀ r, (dev.regions.get r).map (·.models) = (dev0.regions.get r).map (·.models)
  creg : ∀ k, (dev.contacts.get k).map (·.region) = (dev0.contacts.get k).map (·.region)

structure Shows (W : World) (h : List Event) : Prop where
  wf : W.devs.WF
  dev : ∀ d, (W.devs.get d = none ∧ described h d = none ∧ (∀ r, regionMaterial h d r = none) ∧ ∀ k, contactMaterial h d k = none) ∨
    ∃ dev dev0, W.devs.get d = some dev ∧ described h d = some dev0 ∧ ShowsDev dev dev0 (regionMaterial h d) (contactMaterial h d)
  params : ∀ d, W.params.devices.get d = (W.devs.get d).map fun dev => dev.regions.keys

theorem shows_start (dflt : FMap String Py) : Shows (start dflt) [] := by
  refine ⟨FMap.WF.nil, fun d => .inl ⟨rfl, rfl, fun _ => rfl, fun _ => rfl⟩, fun d => rfl⟩

theorem shows_create {W : World} {h} (hs : Shows W h) (d : String) (dev : Dev) (hr : dev.regions.WF) (hc : dev.contacts.WF)
    (hi : dev.interfaces.WF) : Shows (create W d dev) (.create d dev :: h) := by
  unfold create
  by_cases hh : W.devs.has d = true
  · rw [if_pos hh]
    have hnn : described h d ≠ none := by
      rcases hs.dev d with ⟨h1, _⟩ | ⟨_, d0, _, h2, _⟩
      · simp [FMap.has, h1] at hh
      · simp [h2]
    refine ⟨hs.wf, ?_, hs.params⟩
    intro d'
    have e1 : described (.create d dev :: h) d' = described h d' := by
      simp only [described]; rw [if_neg]; rintro ⟨rfl, h⟩; exact hnn h
    have e2 : ∀ r, regionMaterial (.create d dev :: h) d' r = regionMaterial h d' r := by
      intro r; simp only [regionMaterial]; rw [if_neg]; rintro ⟨rfl, h⟩; exact hnn h
    have e3 : ∀ r, contactMaterial (.create d dev :: h) d' r = contactMaterial h d' r := by
      intro r; simp only [contactMaterial]; rw [if_neg]; rintro ⟨rfl, h⟩; exact hnn h
    rw [e1, funext e2, funext e3]
    exact hs.dev d'
  · rw [if_neg hh]
    have hg : W.devs.get d = none := by
      cases hx : W.devs.get d with
      | none => rfl
      | some _ => simp [FMap.has, hx] at hh
    have hnn : described h d = none := by
      rcases hs.dev d with ⟨_, h1, _⟩ | ⟨_, _, h1, _⟩
      · exact h1
      · rw [hg] at h1; cases h1
    refine ⟨FMap.WF.set hs.wf _ _, ?_, ?_⟩
    · intro d'
      by_cases hd : d' = d
      · subst hd
        right
        refine ⟨dev, dev, by rw [FMap.get_set, if_pos rfl], by simp only [described]; rw [if_pos ⟨by trivial, hnn⟩], rfl, rfl, rfl, rfl, hr, hc, hi, ?_, ?_,
          fun _ => rfl, fun _ => rfl⟩
        · intro r; simp only [regionMaterial]; rw [if_pos ⟨by trivial, hnn⟩]
        · intro r; simp only [contactMaterial]; rw [if_pos ⟨by trivial, hnn⟩]
      · have hd' : ¬ d = d' := fun e => hd e.symm
        have e1 : described (.create d dev :: h) d' = described h d' := by
          simp only [described]; rw [if_neg (fun x => hd' x.1)]
        have e2 : ∀ r, regionMaterial (.create d dev :: h) d' r = regionMaterial h d' r := by
          intro r; simp only [regionMaterial]; rw [if_neg (fun x => hd' x.1)]
        have e3 : ∀ r, contactMaterial (.create d dev :: h) d' r = contactMaterial h d' r := by
          intro r; simp only [contactMaterial]; rw [if_neg (fun x => hd' x.1)]
        rw [e1, funext e2, funext e3]
        rw [FMap.get_set, if_neg hd]
        exact hs.dev d'
    · intro d'
      dsimp only
      rw [FMap.get_set, FMap.get_set]
      split
      · rfl
      · exact hs.params d'

theorem shows_delete {W : World} {h} (hs : Shows W h) (d : String) : Shows (delete W d) (.delete d :: h) := by
  have key : ∀ d', d' ≠ d → described (.delete d :: h) d' = described h d' ∧ (regionMaterial (.delete d :: h) d' = regionMaterial h d') ∧
      (contactMaterial (.delete d :: h) d' = contactMaterial h d') := by
    intro d' hd
    have hd' : ¬ d = d' := fun e => hd e.symm
    refine ⟨?_, funext fun r => ?_, funext fun r => ?_⟩
    · simp only [described]; rw [if_neg hd']
    · simp only [regionMaterial]; rw [if_neg hd']
    · simp only [contactMaterial]; rw [if_neg hd']
  have here : described (.delete d :: h) d = none ∧ (∀ r, regionMaterial (.delete d :: h) d r = none) ∧
      ∀ r, contactMaterial (.delete d :: h) d r = none := by
    refine ⟨by simp [described], fun r => by simp [regionMaterial], fun r => by simp [contactMaterial]⟩
  unfold delete
  by_cases hh : W.devs.has d = true
  · rw [if_pos hh]
    refine ⟨FMap.WF.erase hs.wf _, ?_, ?_⟩
    · intro d'
      by_cases hd : d' = d
      · subst hd
        exact .inl ⟨by rw [FMap.get_erase, if_pos rfl], here⟩
      · obtain ⟨k1, k2, k3⟩ := key d' hd
        rw [FMap.get_erase, if_neg hd, k1, k2, k3]
        exact hs.dev d'
    · intro d'
      simp only [Params.deleteDevice]
      rw [FMap.get_erase, FMap.get_erase]
      split
      · rfl
      · exact hs.params d'
  · rw [if_neg hh]
    refine ⟨hs.wf, ?_, hs.params⟩
    intro d'
    by_cases hd : d' = d
    · subst hd
      refine .inl ⟨?_, here⟩
      cases hx : W.devs.get d' with
      | none => rfl
      | some _ => simp [FMap.has, hx] at hh
    · obtain ⟨k1, k2, k3⟩ := key d' hd
      rw [k1, k2, k3]
      exact hs.dev d'

/-- the regions of a history are those of its devices -/
theorem region_found {W : World} {h} (hs : Shows W h) (d r : String) : (region? W d r).map (·.material) = regionMaterial h d r := by
  unfold region?
  rcases hs.dev d with ⟨h1, _, h2, _⟩ | ⟨dev, dev0, h1, _, h2⟩
  · rw [h1, h2]; rfl
  · rw [h1]; exact h2.rmat r
theorem contact_found {W : World} {h} (hs : Shows W h) (d k : String) : (contact? W d k).map (·.material) = contactMaterial h d k := by
  unfold contact?
  rcases hs.dev d with ⟨h1, _, _, h2⟩ | ⟨dev, dev0, h1, _, h2⟩
  · rw [h1, h2]; rfl
  · rw [h1]; exact h2.cmat k
theorem device_found {W : World} {h} (hs : Shows W h) (d : String) : (W.devs.get d).isSome = (described h d).isSome := by
  rcases hs.dev d with ⟨h1, h2, _⟩ | ⟨dev, dev0, h1, h2, _⟩ <;> rw [h1, h2] <;> rfl

/-- commands that are no `set_material` leave what is known -/
theorem known_other (c : Cmd) (g v h) (hc : c ≠ .setMaterial) :
    described (.command c g v :: h) = described h ∧ regionMaterial (.command c g v :: h) = regionMaterial h ∧
    contactMaterial (.command c g v :: h) = contactMaterial h := by
  refine ⟨rfl, ?_, ?_⟩
  · funext d r; simp only [regionMaterial]; rw [if_neg (fun x => hc x.1)]
  · funext d r; simp only [contactMaterial]; rw [if_neg (fun x => hc x.1)]

/-- the cases of `find` -/
theorem find_region {W : World} {d r k : String} (hd : d ≠ "") (hr : r ≠ "") :
    find W d r k = match region? W d r with
      | some reg => ("", ⟨W.devs.get d, some reg, none⟩)
      | none => (onRegion d r ++ " does not exist.\n", ⟨W.devs.get d, none, none⟩) := by
  unfold find; dsimp only; rw [if_pos (.inl hr), if_pos hd, if_pos hr]; cases region? W d r <;> rfl
theorem find_contact {W : World} {d k : String} (hd : d ≠ "") (hk : k ≠ "") :
    find W d "" k = match contact? W d k with
      | some reg => ("", ⟨W.devs.get d, none, some reg⟩)
      | none => (onContact d k ++ " does not exist.\n", ⟨W.devs.get d, none, none⟩) := by
  unfold find; dsimp only; rw [if_pos (.inr hk), if_pos hd, if_neg (by simp)]; cases contact? W d k <;> rfl
theorem find_device {W : World} {d : String} (hd : d ≠ "") :
    find W d "" "" = match W.devs.get d with
      | some dev => ("", ⟨some dev, none, none⟩)
      | none => (noDevice d, ⟨none, none, none⟩) := by
  unfold find; dsimp only; rw [if_neg (by simp), if_pos hd]; cases W.devs.get d <;> rfl
theorem find_nothing {W : World} : find W "" "" "" = ("", ⟨none, none, none⟩) := by
  unfold find; simp
theorem find_bad {W : World} {r k : String} (h : r ≠ "" ∨ k ≠ "") : (find W "" r k).1 ≠ "" ∧ (find W "" r k).2 = ⟨none, none, none⟩ := by
  unfold find; dsimp only; rw [if_pos h, if_neg (by simp)]
  refine ⟨?_, rfl⟩
  dsimp only
  intro e
  have := congrArg String.toList e
  simp at this

theorem app_ne {a b : String} (hb : b ≠ "") : a ++ b ≠ "" := by
  intro e
  have := congrArg String.toList e
  simp only [String.toList_append, String.toList_empty, List.append_eq_nil_iff] at this
  exact hb (String.toList_inj.mp (by simpa using this.2))

theorem region_msg (d r : String) : onRegion d r ++ " does not exist.\n" ≠ "" := app_ne (by decide)
theorem contact_msg (d r : String) : onContact d r ++ " does not exist.\n" ≠ "" := app_ne (by decide)
theorem device_msg (d : String) : noDevice d ≠ "" := by unfold noDevice; exact app_ne (by decide)

theorem shows_setMaterial {W : World} {h} (hs : Shows W h) (g : String → String) (v : Py) :
    Shows (command W .setMaterial g v).1 (.command .setMaterial g v :: h) := by
  have skip : (∀ d r, regionMaterial (.command .setMaterial g v :: h) d r = regionMaterial h d r) →
      (∀ d r, contactMaterial (.command .setMaterial g v :: h) d r = contactMaterial h d r) → Shows W (.command .setMaterial g v :: h) := by
    intro e1 e2
    refine ⟨hs.wf, ?_, hs.params⟩
    intro d
    have e0 : described (.command .setMaterial g v :: h) d = described h d := rfl
    rw [e0, funext (e1 d), funext (e2 d)]
    exact hs.dev d
  have hcmd : command W .setMaterial g v =
      if (find W (g "device") (g "region") (g "contact")).1 ≠ "" then (W, .err (find W (g "device") (g "region") (g "contact")).1)
      else (setMaterial W (g "device") (g "region") (g "contact") (g "material") (find W (g "device") (g "region") (g "contact")).2, .empty) := by
    simp [command]
  rw [hcmd]
  generalize hd : g "device" = d
  generalize hr : g "region" = r
  generalize hk : g "contact" = k
  generalize hm : g "material" = m
  by_cases hd0 : d = ""
  · have : Shows W (.command .setMaterial g v :: h) := by
      apply skip
      · intro d' r'; simp only [regionMaterial]; rw [if_neg]; rintro ⟨_, e, e2, _⟩; exact e2 (by rw [← e, hd, hd0])
      · intro d' r'; simp only [contactMaterial]; rw [if_neg]; rintro ⟨_, e, e2, _⟩; exact e2 (by rw [← e, hd, hd0])
    subst hd0
    by_cases hx : r ≠ "" ∨ k ≠ ""
    · rw [if_pos (find_bad hx).1]; exact this
    · push Not at hx
      obtain ⟨rfl, rfl⟩ := hx
      rw [find_nothing]; exact this
  by_cases hr0 : r = ""
  · subst hr0
    have er : ∀ d' r', regionMaterial (.command .setMaterial g v :: h) d' r' = regionMaterial h d' r' := by
      intro d' r'; simp only [regionMaterial]; rw [if_neg]; rintro ⟨_, _, _, e, e2, _⟩; exact e2 (by rw [← e, hr])
    by_cases hk0 : k = ""
    · subst hk0
      have : Shows W (.command .setMaterial g v :: h) := by
        apply skip er
        intro d' r'; simp only [contactMaterial]; rw [if_neg]; rintro ⟨_, _, _, _, e, e2, _⟩; exact e2 (by rw [← e, hk])
      rw [find_device hd0]
      cases hx : W.devs.get d with
      | none => dsimp only; rw [if_pos (device_msg d)]; exact this
      | some dev => simpa [setMaterial] using this
    rw [find_contact hd0 hk0]
    cases hx : contact? W d k with
    | none =>
      dsimp only; rw [if_pos (contact_msg d k)]
      apply skip er
      intro d' r'
      simp only [contactMaterial]; rw [if_neg]
      rintro ⟨_, e, _, _, e2, _, e3⟩
      rw [hd] at e; rw [hk] at e2; subst e e2
      rw [← contact_found hs, hx] at e3
      cases e3
    | some ctc =>
      rw [if_neg (by simp)]
      unfold contact? at hx
      rcases hs.dev d with ⟨h1, _⟩ | ⟨dev, dev0, h1, h2, sd⟩
      · rw [h1] at hx; cases hx
      rw [h1] at hx
      simp only [Option.bind_some] at hx
      rw [h1]
      simp only [setMaterial, setContactMaterial]
      refine ⟨FMap.WF.set hs.wf _ _, ?_, ?_⟩
      · intro d'
        have e0 : described (.command .setMaterial g v :: h) d' = described h d' := rfl
        rw [e0, funext (er d')]
        rw [FMap.get_set]
        by_cases hdd : d' = d
        · subst hdd
          right
          refine ⟨_, dev0, if_pos rfl, h2, sd.dim, sd.ifs, sd.rkeys, ?_, sd.rwf, FMap.WF.set sd.cwf _ _, sd.iwf, sd.rmat, ?_, sd.rmod, ?_⟩
          · dsimp only
            rw [FMap.keys_set _ _ _ sd.cwf, if_pos, sd.ckeys]
            rw [FMap.mem_keys, hx]; rfl
          · intro k'
            dsimp only
            rw [FMap.get_set]
            by_cases hkk : k' = k
            · subst hkk
              rw [if_pos rfl]
              simp only [contactMaterial]
              rw [if_pos ⟨by trivial, hd, hd0, hr, hk, hk0, by rw [← sd.cmat, hx]; rfl⟩, hm]
              rfl
            · rw [if_neg hkk, sd.cmat]
              simp only [contactMaterial]
              rw [if_neg]
              rintro ⟨_, _, _, _, e, _⟩; exact hkk (by rw [← e, hk])
          · intro k'
            dsimp only
            rw [FMap.get_set]
            by_cases hkk : k' = k
            · subst hkk; rw [if_pos rfl, ← sd.creg, hx]; rfl
            · rw [if_neg hkk, sd.creg]
        · rw [if_neg hdd]
          have : ∀ k', contactMaterial (.command .setMaterial g v :: h) d' k' = contactMaterial h d' k' := by
            intro k'; simp only [contactMaterial]; rw [if_neg]; rintro ⟨_, e, _⟩; exact hdd (by rw [← e, hd])
          rw [funext this]
          exact hs.dev d'
      · intro d'
        dsimp only
        rw [FMap.get_set, hs.params]
        by_cases hdd : d' = d
        · subst hdd; rw [if_pos rfl, h1]; rfl
        · rw [if_neg hdd]
  · have ec : ∀ d' r', contactMaterial (.command .setMaterial g v :: h) d' r' = contactMaterial h d' r' := by
      intro d' r'; simp only [contactMaterial]; rw [if_neg]; rintro ⟨_, _, _, e, _⟩; exact hr0 (by rw [← e, hr])
    rw [find_region hd0 hr0]
    cases hx : region? W d r with
    | none =>
      dsimp only; rw [if_pos (region_msg d r)]
      refine skip ?_ ec
      intro d' r'
      simp only [regionMaterial]; rw [if_neg]
      rintro ⟨_, e, _, e2, _, e3⟩
      rw [hd] at e; rw [hr] at e2; subst e e2
      rw [← region_found hs, hx] at e3
      cases e3
    | some reg =>
      rw [if_neg (by simp)]
      unfold region? at hx
      rcases hs.dev d with ⟨h1, _⟩ | ⟨dev, dev0, h1, h2, sd⟩
      · rw [h1] at hx; cases hx
      rw [h1] at hx
      simp only [Option.bind_some] at hx
      rw [h1]
      simp only [setMaterial, setRegionMaterial]
      have hkeys : (dev.regions.set r { reg with material := m }).keys = dev.regions.keys := by
        rw [FMap.keys_set _ _ _ sd.rwf, if_pos]
        rw [FMap.mem_keys, hx]; rfl
      refine ⟨FMap.WF.set hs.wf _ _, ?_, ?_⟩
      · intro d'
        have e0 : described (.command .setMaterial g v :: h) d' = described h d' := rfl
        rw [e0, funext (ec d')]
        rw [FMap.get_set]
        by_cases hdd : d' = d
        · subst hdd
          right
          refine ⟨_, dev0, if_pos rfl, h2, sd.dim, sd.ifs, ?_, sd.ckeys, FMap.WF.set sd.rwf _ _, sd.cwf, sd.iwf, ?_, sd.cmat, ?_, sd.creg⟩
          · dsimp only; rw [hkeys, sd.rkeys]
          · intro r'
            dsimp only
            rw [FMap.get_set]
            by_cases hkk : r' = r
            · subst hkk
              rw [if_pos rfl]
              simp only [regionMaterial]
              rw [if_pos ⟨by trivial, hd, hd0, hr, hr0, by rw [← sd.rmat, hx]; rfl⟩, hm]
              rfl
            · rw [if_neg hkk, sd.rmat]
              simp only [regionMaterial]
              rw [if_neg]
              rintro ⟨_, _, _, e, _⟩; exact hkk (by rw [← e, hr])
          · intro k'
            dsimp only
            rw [FMap.get_set]
            by_cases hkk : k' = r
            · subst hkk; rw [if_pos rfl, ← sd.rmod, hx]; rfl
            · rw [if_neg hkk, sd.rmod]
        · rw [if_neg hdd]
          have : ∀ k', regionMaterial (.command .setMaterial g v :: h) d' k' = regionMaterial h d' k' := by
            intro k'; simp only [regionMaterial]; rw [if_neg]; rintro ⟨_, e, _⟩; exact hdd (by rw [← e, hd])
          rw [funext this]
          exact hs.dev d'
      · intro d'
        dsimp only
        rw [FMap.get_set, hs.params]
        by_cases hdd : d' = d
        · subst hdd; rw [if_pos rfl, h1]; simp only [Option.map_some, hkeys]
        · rw [if_neg hdd]

end Verif.Mat
