import Verif.Params.Spec
/-
C10 (parameter lookup), C11 (notification of parameter changes).
-/
namespace Verif.Params
open Verif
variable {D R N V : Type} [DecidableEq D] [DecidableEq R] [DecidableEq N]

/-- what is stored at device scope / region scope -/
def atDevice (db : DB D R N V) (d : D) (n : N) : Option V := (db.device.get d).bind (fun m => m.get n)
def atRegion (db : DB D R N V) (d : D) (r : R) (n : N) : Option V :=
  (db.region.get d).bind (fun m => (m.get r).bind (fun m => m.get n))

theorem getDevice_eq (db : DB D R N V) (d : D) (n : N) :
    getDevice db d n = (atDevice db d n).or (db.global.get n) := by
  unfold getDevice atDevice getGlobal
  cases db.device.get d with
  | none => rfl
  | some m => simp only [Option.bind_some]; cases m.get n <;> rfl

theorem getRegion_eq (db : DB D R N V) (d : D) (r : R) (n : N) :
    getRegion db d r n = ((atRegion db d r n).or (atDevice db d n)).or (db.global.get n) := by
  have key : getRegion db d r n = ((atRegion db d r n).or (getDevice db d n)).or (db.global.get n) := by
    unfold getRegion atRegion getGlobal
    cases db.region.get d with
    | none => simp only [Option.bind_none, Option.none_or]; cases getDevice db d n <;> rfl
    | some m =>
      simp only [Option.bind_some]
      cases m.get r with
      | none => simp only [Option.bind_none, Option.none_or]; cases getDevice db d n <;> rfl
      | some m =>
        simp only [Option.bind_some]
        cases m.get n with
        | none => simp only [Option.none_or]; cases getDevice db d n <;> rfl
        | some v => rfl
  rw [key, getDevice_eq]
  cases atRegion db d r n <;> cases atDevice db d n <;> cases db.global.get n <;> rfl

/-- the database agrees with the history -/
structure Agrees (dflt : FMap N V) (db : DB D R N V) (h : List (Op D R N V)) : Prop where
  devs : ∀ d, db.devices.get d = regionsAfter h d
  glob : ∀ n, db.global.get n = lastGlobal dflt.get h n
  dev : ∀ d n, atDevice db d n = lastDevice h d n
  reg : ∀ d r n, atRegion db d r n = lastRegion h d r n

theorem atDevice_add (db : DB D R N V) (d d' : D) (n n' : N) (v : V) :
    atDevice (addDevice db d n v).1 d' n' = if d = d' ∧ n = n' then some v else atDevice db d' n' := by
  simp only [addDevice, atDevice]
  rw [FMap.get_set]
  by_cases hd : d' = d
  · subst hd
    rw [if_pos rfl]
    simp only [Option.bind_some]
    rw [FMap.get_set]
    by_cases hn : n' = n
    · rw [if_pos hn, if_pos (by simp [hn])]
    · rw [if_neg hn, if_neg (fun h => hn h.2.symm)]
      cases db.device.get d' <;> rfl
  · rw [if_neg hd, if_neg (fun h => hd h.1.symm)]

theorem atRegion_add (db : DB D R N V) (d d' : D) (r r' : R) (n n' : N) (v : V) :
    atRegion (addRegion db d r n v).1 d' r' n' =
      if d = d' ∧ r = r' ∧ n = n' then some v else atRegion db d' r' n' := by
  simp only [addRegion, atRegion]
  rw [FMap.get_set]
  by_cases hd : d' = d
  · subst hd
    rw [if_pos rfl]
    simp only [Option.bind_some]
    rw [FMap.get_set]
    by_cases hr : r' = r
    · subst hr
      rw [if_pos rfl]
      simp only [Option.bind_some]
      rw [FMap.get_set]
      by_cases hn : n' = n
      · rw [if_pos hn, if_pos (by simp [hn])]
      · rw [if_neg hn, if_neg (fun h => hn h.2.2.symm)]
        cases db.region.get d' with
        | none => rfl
        | some m => simp only [Option.getD_some, Option.bind_some]; cases m.get r' <;> rfl
    · rw [if_neg hr, if_neg (fun h => hr h.2.1.symm)]
      cases db.region.get d' <;> rfl
  · rw [if_neg hd, if_neg (fun h => hd h.1.symm)]

theorem agrees_step (dflt : FMap N V) (db : DB D R N V) (h : List (Op D R N V)) (o : Op D R N V)
    (ha : Agrees dflt db h) : Agrees dflt (step db o) (o :: h) := by
  obtain ⟨h1, h2, h3, h4⟩ := ha
  cases o with
  | create d rs =>
    simp only [step, exec]
    by_cases hd : db.devices.has d = true
    · rw [if_pos hd]
      have hs : (regionsAfter h d).isSome := by rw [← h1]; exact hd
      obtain ⟨x, hx⟩ := Option.isSome_iff_exists.mp hs
      refine ⟨?_, h2, h3, h4⟩
      intro d'; simp only [regionsAfter, hx]; exact h1 d'
    · rw [if_neg hd]
      have hs : regionsAfter h d = none := by
        rw [← h1]; simpa [FMap.has] using hd
      refine ⟨?_, h2, h3, h4⟩
      intro d'
      simp only [regionsAfter, hs, Option.map_some, Option.getD_some]
      rw [FMap.get_set]
      by_cases e : d' = d
      · rw [if_pos e, if_pos e.symm]
      · rw [if_neg e, if_neg (fun x => e x.symm)]; exact h1 d'
  | delete d =>
    simp only [step, exec]
    by_cases hd : db.devices.has d = true
    · rw [if_pos hd]
      simp only [Option.map_some, Option.getD_some, deleteDevice]
      refine ⟨?_, h2, ?_, ?_⟩
      · intro d'
        simp only [regionsAfter]
        rw [FMap.get_erase]
        by_cases e : d' = d
        · rw [if_pos e, if_pos e.symm]
        · rw [if_neg e, if_neg (fun x => e x.symm)]; exact h1 d'
      · intro d' n
        simp only [lastDevice, atDevice]
        rw [FMap.get_erase]
        by_cases e : d' = d
        · rw [if_pos e, if_pos e.symm]; rfl
        · rw [if_neg e, if_neg (fun x => e x.symm)]; exact h3 d' n
      · intro d' r n
        simp only [lastRegion, atRegion]
        rw [FMap.get_erase]
        by_cases e : d' = d
        · rw [if_pos e, if_pos e.symm]; rfl
        · rw [if_neg e, if_neg (fun x => e x.symm)]; exact h4 d' r n
    · rw [if_neg hd]
      have hs : regionsAfter h d = none := by
        rw [← h1]; simpa [FMap.has] using hd
      -- nothing can be stored for a device that does not exist
      have nodev : ∀ (h : List (Op D R N V)) d, regionsAfter h d = none →
          (∀ n, lastDevice h d n = none) ∧ ∀ r n, lastRegion h d r n = none := by
        intro h
        induction h with
        | nil => intro d _; exact ⟨fun _ => rfl, fun _ _ => rfl⟩
        | cons o h ih =>
          intro d hd
          cases o with
          | create d' rs =>
            simp only [regionsAfter] at hd
            split at hd
            · exact ih d hd
            · split at hd
              · cases hd
              · exact ih d hd
          | delete d' =>
            simp only [regionsAfter] at hd
            simp only [lastDevice, lastRegion]
            split at hd
            · rename_i e; simp [e]
            · rename_i e; simp only [if_neg e]; exact ih d hd
          | set od or n' v =>
            simp only [regionsAfter] at hd
            obtain ⟨i1, i2⟩ := ih d hd
            cases od with
            | none => cases or <;> exact ⟨i1, i2⟩
            | some d' =>
              cases or with
              | none =>
                refine ⟨?_, i2⟩
                intro n
                simp only [lastDevice]
                rw [if_neg (by rintro ⟨rfl, _, h⟩; rw [hd] at h; cases h)]
                exact i1 n
              | some r' =>
                refine ⟨i1, ?_⟩
                intro r n
                simp only [lastRegion]
                rw [if_neg (by rintro ⟨rfl, _, _, h⟩; rw [hd] at h; simp at h)]
                exact i2 r n
      obtain ⟨n1, n2⟩ := nodev h d hs
      refine ⟨?_, h2, ?_, ?_⟩
      · intro d'; simp only [regionsAfter]
        split
        · rename_i e; subst e; rw [← hs]; exact h1 d
        · exact h1 d'
      · intro d' n; simp only [lastDevice]
        split
        · rename_i e; subst e; rw [← n1 n]; exact h3 d n
        · exact h3 d' n
      · intro d' r n; simp only [lastRegion]
        split
        · rename_i e; subst e; rw [← n2 r n]; exact h4 d r n
        · exact h4 d' r n
  | set od or n v =>
    cases od with
    | none =>
      cases or with
      | none =>
        refine ⟨h1, ?_, h3, h4⟩
        intro n'
        simp only [step, exec, addGlobal, Option.map_some, Option.getD_some, lastGlobal]
        rw [FMap.get_set]
        by_cases e : n' = n
        · rw [if_pos e, if_pos e.symm]
        · rw [if_neg e, if_neg (fun x => e x.symm)]; exact h2 n'
      | some r => exact ⟨h1, h2, h3, h4⟩
    | some d =>
      cases or with
      | none =>
        simp only [step, exec]
        by_cases hd : db.devices.has d = true
        · rw [if_pos hd]
          simp only [Option.map_some, Option.getD_some]
          refine ⟨h1, h2, ?_, h4⟩
          intro d' n'
          rw [atDevice_add]
          simp only [lastDevice]
          have hs : (regionsAfter h d).isSome := by rw [← h1]; exact hd
          by_cases e : d = d' ∧ n = n'
          · rw [if_pos e, if_pos ⟨e.1, e.2, hs⟩]
          · rw [if_neg e, if_neg (fun x => e ⟨x.1, x.2.1⟩)]; exact h3 d' n'
        · rw [if_neg hd]
          refine ⟨h1, h2, ?_, h4⟩
          intro d' n'
          have hs : ¬ (regionsAfter h d).isSome := by rw [← h1]; exact hd
          simp only [lastDevice]
          rw [if_neg (fun x => hs x.2.2)]
          exact h3 d' n'
      | some r =>
        simp only [step, exec]
        cases hd : db.devices.get d with
        | none =>
          refine ⟨h1, h2, h3, ?_⟩
          intro d' r' n'
          simp only [lastRegion]
          have := h1 d
          rw [hd] at this
          rw [if_neg (fun x => by rw [← this] at x; simp at x)]
          exact h4 d' r' n'
        | some rs =>
          have := h1 d
          rw [hd] at this
          simp only
          by_cases hr : r ∈ rs
          · rw [if_pos hr]
            simp only [Option.map_some, Option.getD_some]
            refine ⟨h1, h2, h3, ?_⟩
            intro d' r' n'
            rw [atRegion_add]
            simp only [lastRegion, ← this, Option.getD_some]
            by_cases e : d = d' ∧ r = r' ∧ n = n'
            · rw [if_pos e, if_pos ⟨e.1, e.2.1, e.2.2, hr⟩]
            · rw [if_neg e, if_neg (fun x => e ⟨x.1, x.2.1, x.2.2.1⟩)]; exact h4 d' r' n'
          · rw [if_neg hr]
            refine ⟨h1, h2, h3, ?_⟩
            intro d' r' n'
            simp only [lastRegion, ← this, Option.getD_some]
            rw [if_neg (fun x => hr x.2.2.2)]
            exact h4 d' r' n'

theorem agrees_run (dflt : FMap N V) (ops : List (Op D R N V)) :
    Agrees dflt (run (init dflt) ops) ops.reverse := by
  have key : ∀ (ops : List (Op D R N V)) db h, Agrees dflt db h → Agrees dflt (run db ops) (ops.reverse ++ h) := by
    intro ops
    induction ops with
    | nil => intro db h ha; exact ha
    | cons o ops ih =>
      intro db h ha
      have := ih _ _ (agrees_step dflt db h o ha)
      simpa [run] using this
  have := key ops (init dflt) [] ⟨fun _ => rfl, fun _ => rfl, fun _ _ => rfl, fun _ _ _ => rfl⟩
  simpa using this

/-- C10: after any history of device creations, deletions and parameter settings, looking a parameter up on a region
gives the last value set on that region, else on that device, else globally. -/
theorem lookup_region (dflt : FMap N V) (ops : List (Op D R N V)) (d : D) (r : R) (n : N) :
    getRegion (run (init dflt) ops) d r n =
      match lastRegion ops.reverse d r n with
      | some v => some v
      | none => match lastDevice ops.reverse d n with
        | some v => some v
        | none => lastGlobal dflt.get ops.reverse n := by
  have h := agrees_run dflt ops
  rw [getRegion_eq, h.reg, h.dev, h.glob]
  cases lastRegion ops.reverse d r n <;> cases lastDevice ops.reverse d n <;> rfl

theorem lookup_device (dflt : FMap N V) (ops : List (Op D R N V)) (d : D) (n : N) :
    getDevice (run (init dflt) ops) d n =
      match lastDevice ops.reverse d n with
      | some v => some v
      | none => lastGlobal dflt.get ops.reverse n := by
  have h := agrees_run dflt ops
  rw [getDevice_eq, h.dev, h.glob]
  cases lastDevice ops.reverse d n <;> rfl

theorem lookup_global (dflt : FMap N V) (ops : List (Op D R N V)) (n : N) :
    getGlobal (run (init dflt) ops) n = lastGlobal dflt.get ops.reverse n := (agrees_run dflt ops).glob n

/-- C10: an inner setting is invisible from outside: a setting on one region does not change what any other region, any
device or the global scope sees. -/
theorem set_region_local (db : DB D R N V) (d d' : D) (r r' : R) (n n' : N) (v : V) (h : (d, r, n) ≠ (d', r', n')) :
    getRegion (step db (.set (some d) (some r) n v)) d' r' n' = getRegion db d' r' n' ∧
    getDevice (step db (.set (some d) (some r) n v)) d' n' = getDevice db d' n' ∧
    getGlobal (step db (.set (some d) (some r) n v)) n' = getGlobal db n' := by
  simp only [step, exec]
  cases hd : db.devices.get d with
  | none => exact ⟨rfl, rfl, rfl⟩
  | some rs =>
    simp only
    by_cases hr : r ∈ rs
    · rw [if_pos hr]
      refine ⟨?_, rfl, rfl⟩
      simp only [Option.map_some, Option.getD_some]
      rw [getRegion_eq, getRegion_eq, atRegion_add, if_neg (by rintro ⟨rfl, rfl, rfl⟩; exact h rfl)]
      rfl
    · rw [if_neg hr]; exact ⟨rfl, rfl, rfl⟩

/-- C10: a setting on a device changes nothing on other devices or globally. -/
theorem set_device_local (db : DB D R N V) (d d' : D) (r' : R) (n n' : N) (v : V) (h : (d, n) ≠ (d', n')) :
    getRegion (step db (.set (some d) none n v)) d' r' n' = getRegion db d' r' n' ∧
    getDevice (step db (.set (some d) none n v)) d' n' = getDevice db d' n' ∧
    ∀ n', getGlobal (step db (.set (some d) none n v)) n' = getGlobal db n' := by
  simp only [step, exec]
  by_cases hd : db.devices.has d = true
  · rw [if_pos hd]
    simp only [Option.map_some, Option.getD_some]
    have e := atDevice_add db d d' n n' v
    rw [if_neg (by rintro ⟨rfl, rfl⟩; exact h rfl)] at e
    refine ⟨?_, ?_, fun _ => rfl⟩
    · rw [getRegion_eq, getRegion_eq, e]; rfl
    · rw [getDevice_eq, getDevice_eq, e]; rfl
  · rw [if_neg hd]; exact ⟨rfl, rfl, fun _ => rfl⟩

/-- C10: get_parameter_list on a region lists exactly the names set on that region (not those inherited), each once. -/
theorem list_region (dflt : FMap N V) (ops : List (Op D R N V)) (d : D) (r : R) (n : N) :
    n ∈ listRegion (run (init dflt) ops) d r ↔ lastRegion ops.reverse d r n ≠ none := by
  rw [← (agrees_run dflt ops).reg]
  unfold listRegion atRegion
  cases (run (init dflt) ops).region.get d with
  | none => simp
  | some m =>
    simp only [Option.bind_some]
    cases m.get r with
    | none => simp
    | some m => simp only [Option.bind_some]; rw [FMap.mem_keys]; simp [Option.isSome_iff_ne_none]

theorem list_device (dflt : FMap N V) (ops : List (Op D R N V)) (d : D) (n : N) :
    n ∈ listDevice (run (init dflt) ops) d ↔ lastDevice ops.reverse d n ≠ none := by
  rw [← (agrees_run dflt ops).dev]
  unfold listDevice atDevice
  cases (run (init dflt) ops).device.get d with
  | none => simp
  | some m => simp only [Option.bind_some]; rw [FMap.mem_keys]; simp [Option.isSome_iff_ne_none]

theorem list_global (dflt : FMap N V) (ops : List (Op D R N V)) (n : N) :
    n ∈ listGlobal (run (init dflt : DB D R N V) ops) ↔ lastGlobal (fun n => dflt.get n) ops.reverse n ≠ none := by
  rw [← lookup_global dflt ops n]
  unfold listGlobal getGlobal
  rw [FMap.mem_keys]; simp [Option.isSome_iff_ne_none]

/-! ### C11 -/

theorem mem_signalDevice (db : DB D R N V) (d d' : D) (r : R) (n n' : N) :
    (d', r, n') ∈ signalDevice db d n ↔
      d' = d ∧ n' = n ∧ (∃ rs, db.devices.get d = some rs ∧ r ∈ rs) ∧ atRegion db d r n = none := by
  unfold signalDevice atRegion
  cases hd : db.devices.get d with
  | none => simp
  | some rs =>
    simp only [List.mem_flatMap]
    cases hr : db.region.get d with
    | none => 
      simp only [List.mem_singleton, Prod.mk.injEq, Option.bind_none, and_true, Option.some.injEq, exists_eq_left']
      constructor
      · rintro ⟨a, h1, rfl, rfl, rfl⟩; exact ⟨rfl, rfl, h1⟩
      · rintro ⟨rfl, rfl, h1⟩; exact ⟨r, h1, rfl, rfl, rfl⟩
    | some ddm =>
      simp only [Option.bind_some, Option.some.injEq, exists_eq_left']
      have key : ∀ a, (d', r, n') ∈ (match ddm.get a with
          | some gdm => if gdm.has n = true then [] else [(d, a, n)]
          | none => [(d, a, n)]) ↔ d' = d ∧ r = a ∧ n' = n ∧ ((ddm.get a).bind fun m => m.get n) = none := by
        intro a
        cases ddm.get a with
        | none => simp
        | some m =>
          simp only [Option.bind_some]
          by_cases hm : m.has n = true
          · rw [if_pos hm]
            have : m.get n ≠ none := by rw [← Option.isSome_iff_ne_none]; exact hm
            simp [this]
          · rw [if_neg hm]
            have : m.get n = none := by simpa [FMap.has] using hm
            simp [this]
      refine (exists_congr fun a => and_congr_right fun _ => key a).trans ?_
      constructor
      · rintro ⟨a, h1, rfl, rfl, rfl, h⟩; exact ⟨rfl, rfl, h1, h⟩
      · rintro ⟨rfl, rfl, h1, h⟩; exact ⟨r, h1, rfl, rfl, rfl, h⟩

theorem mem_signalGlobal (db : DB D R N V) (d : D) (r : R) (n n' : N) :
    (d, r, n') ∈ signalGlobal db n ↔
      n' = n ∧ (∃ rs, db.devices.get d = some rs ∧ r ∈ rs) ∧ atRegion db d r n = none ∧ atDevice db d n = none := by
  unfold signalGlobal
  simp only [List.mem_flatMap]
  have key : ∀ a, (d, r, n') ∈ (match db.device.get a with
      | some gdm => if gdm.has n = true then [] else signalDevice db a n
      | none => signalDevice db a n) ↔ (d, r, n') ∈ signalDevice db a n ∧ atDevice db a n = none := by
    intro a
    unfold atDevice
    cases db.device.get a with
    | none => simp
    | some m =>
      simp only [Option.bind_some]
      by_cases hm : m.has n = true
      · rw [if_pos hm]
        have : m.get n ≠ none := by rw [← Option.isSome_iff_ne_none]; exact hm
        simp [this]
      · rw [if_neg hm]
        have : m.get n = none := by simpa [FMap.has] using hm
        simp [this]
  refine (exists_congr fun a => and_congr_right fun _ => key a).trans ?_
  simp only [mem_signalDevice]
  constructor
  · rintro ⟨a, h1, ⟨rfl, rfl, h2, h3⟩, h4⟩; exact ⟨rfl, h2, h3, h4⟩
  · rintro ⟨rfl, h2, h3, h4⟩
    refine ⟨d, ?_, ⟨rfl, rfl, h2, h3⟩, h4⟩
    rw [FMap.mem_keys]
    obtain ⟨rs, h, _⟩ := h2
    rw [h]; rfl

/-- C11: whenever a set_parameter command changes the value that an existing region sees for some name, that region is
told about that name. -/
theorem change_is_signalled (db : DB D R N V) (od : Option D) (or : Option R) (n : N) (v : V) (d : D) (r : R) (n' : N)
    (rs : List R) (hex : db.devices.get d = some rs) (hr : r ∈ rs)
    (hch : getRegion (step db (.set od or n v)) d r n' ≠ getRegion db d r n') :
    (d, r, n') ∈ signals db (.set od or n v) := by
  cases od with
  | none =>
    cases or with
    | some r0 => exact absurd rfl hch
    | none =>
      simp only [signals, exec, Option.map_some, Option.getD_some, addGlobal]
      simp only [step, exec, Option.map_some, Option.getD_some, addGlobal] at hch
      rw [getRegion_eq, getRegion_eq] at hch
      rw [mem_signalGlobal]
      simp only [FMap.get_set] at hch
      have e1 : atRegion { db with global := db.global.set n v } d r n' = atRegion db d r n' := rfl
      have e2 : atDevice { db with global := db.global.set n v } d n' = atDevice db d n' := rfl
      rw [e1, e2] at hch
      by_cases hn : n' = n
      · subst hn
        refine ⟨rfl, ⟨rs, hex, hr⟩, ?_, ?_⟩
        · apply Classical.byContradiction
          intro h
          obtain ⟨x, hx⟩ := Option.ne_none_iff_exists'.mp h
          have hx' : atRegion db d r n' = some x := hx
          rw [hx'] at hch; simp at hch
        · apply Classical.byContradiction
          intro h
          obtain ⟨x, hx⟩ := Option.ne_none_iff_exists'.mp h
          have hx' : atDevice db d n' = some x := hx
          rw [hx'] at hch
          cases hy : atRegion db d r n' <;> rw [hy] at hch <;> simp at hch
      · rw [if_neg hn] at hch; exact absurd rfl hch
  | some d0 =>
    cases or with
    | none =>
      by_cases hd : db.devices.has d0 = true
      · simp only [signals, exec, if_pos hd, Option.map_some, Option.getD_some]
        simp only [step, exec, if_pos hd, Option.map_some, Option.getD_some] at hch
        have e : (d0, n) = (d, n') := by
          apply Classical.byContradiction
          intro h
          have := (set_device_local db d0 d r n n' v h).1
          simp only [step, exec, if_pos hd, Option.map_some, Option.getD_some] at this
          exact hch this
        cases e
        simp only [addDevice]
        rw [mem_signalDevice]
        refine ⟨rfl, rfl, ⟨rs, hex, hr⟩, ?_⟩
        apply Classical.byContradiction
        intro h
        obtain ⟨x, hx⟩ := Option.ne_none_iff_exists'.mp h
        have hx' : atRegion db d r n = some x := hx
        have hx2 : atRegion (addDevice db d n v).1 d r n = some x := hx
        rw [getRegion_eq, getRegion_eq, hx', hx2] at hch
        simp at hch
      · simp only [step, exec, if_neg hd, Option.map_none, Option.getD_none] at hch
        exact absurd rfl hch
    | some r0 =>
      have e : (d0, r0, n) = (d, r, n') := by
        apply Classical.byContradiction
        intro h
        exact hch (set_region_local db d0 d r0 r n n' v h).1
      cases e
      simp only [signals, exec, hex, if_pos hr, Option.map_some, Option.getD_some, addRegion, signalRegion]
      simp

/-- C11: a region is told exactly when it exists and nothing set at a scope further in hides the new value; so a region
whose visible value is shadowed is not affected. -/
theorem signalled_iff (db : DB D R N V) (n n' : N) (v : V) (d : D) (r : R) :
    (d, r, n') ∈ signals db (.set none none n v) ↔
      n' = n ∧ (∃ rs, db.devices.get d = some rs ∧ r ∈ rs) ∧ atRegion db d r n = none ∧ atDevice db d n = none := by
  simp only [signals, exec, Option.map_some, Option.getD_some, addGlobal]
  rw [mem_signalGlobal]; rfl

theorem signalled_device_iff (db : DB D R N V) (n n' : N) (v : V) (d0 d : D) (r : R) :
    (d, r, n') ∈ signals db (.set (some d0) none n v) ↔
      d = d0 ∧ n' = n ∧ (∃ rs, db.devices.get d = some rs ∧ r ∈ rs) ∧ atRegion db d r n = none := by
  simp only [signals, exec]
  by_cases hd : db.devices.has d0 = true
  · rw [if_pos hd]
    simp only [Option.map_some, Option.getD_some, addDevice]
    rw [mem_signalDevice]
    constructor
    · rintro ⟨rfl, rfl, h1, h2⟩; exact ⟨rfl, rfl, h1, h2⟩
    · rintro ⟨rfl, rfl, h1, h2⟩; exact ⟨rfl, rfl, h1, h2⟩
  · rw [if_neg hd]
    simp only [Option.map_none, Option.getD_none, List.not_mem_nil, false_iff]
    rintro ⟨rfl, rfl, ⟨rs, h, _⟩, _⟩
    exact hd (by unfold FMap.has; rw [h]; rfl)

theorem signalled_region_iff (db : DB D R N V) (n n' : N) (v : V) (d0 d : D) (r0 r : R) :
    (d, r, n') ∈ signals db (.set (some d0) (some r0) n v) ↔
      d = d0 ∧ r = r0 ∧ n' = n ∧ ∃ rs, db.devices.get d = some rs ∧ r ∈ rs := by
  simp only [signals, exec]
  cases hd : db.devices.get d0 with
  | none =>
    simp only [Option.map_none, Option.getD_none, List.not_mem_nil, false_iff]
    rintro ⟨rfl, rfl, rfl, rs, h, _⟩; rw [hd] at h; cases h
  | some rs =>
    simp only
    by_cases hr : r0 ∈ rs
    · rw [if_pos hr]
      simp only [Option.map_some, Option.getD_some, addRegion, signalRegion, hd, if_pos hr, List.mem_singleton,
        Prod.mk.injEq]
      constructor
      · rintro ⟨rfl, rfl, rfl⟩; exact ⟨rfl, rfl, rfl, rs, hd, hr⟩
      · rintro ⟨rfl, rfl, rfl, _⟩; exact ⟨rfl, rfl, rfl⟩
    · rw [if_neg hr]
      simp only [Option.map_none, Option.getD_none, List.not_mem_nil, false_iff]
      rintro ⟨rfl, rfl, rfl, rs', h, h'⟩
      rw [hd] at h; cases h; exact hr h'

/-- C11: a shadowed region keeps the value it sees. -/
theorem shadowed_unchanged (db : DB D R N V) (n : N) (v : V) (d : D) (r : R)
    (hsh : atRegion db d r n ≠ none ∨ atDevice db d n ≠ none) :
    getRegion (step db (.set none none n v)) d r n = getRegion db d r n ∧
    (d, r, n) ∉ signals db (.set none none n v) := by
  constructor
  · rw [getRegion_eq, getRegion_eq]
    have e1 : atRegion (step db (.set none none n v)) d r n = atRegion db d r n := rfl
    have e2 : atDevice (step db (.set none none n v)) d n = atDevice db d n := rfl
    rw [e1, e2]
    cases h1 : atRegion db d r n with
    | some x => rfl
    | none => cases h2 : atDevice db d n with
      | some x => rfl
      | none => simp [h1, h2] at hsh
  · rw [signalled_iff]
    rintro ⟨_, _, h1, h2⟩
    rcases hsh with h | h
    · exact h h1
    · exact h h2

/-! concrete cases -/
section Examples
def h1 : List (Op Nat Nat Nat Int) :=
  [.create 1 [10, 11], .set none none 5 100, .set (some 1) none 5 200, .set (some 1) (some 10) 5 300, .create 2 [10],
   .set none none 5 101]
example : getRegion (run (init []) h1) 1 10 5 = some 300 := rfl
example : getRegion (run (init []) h1) 1 11 5 = some 200 := rfl
example : getRegion (run (init []) h1) 2 10 5 = some 101 := rfl
example : getRegion (run (init []) (h1 ++ [.delete 1, .create 1 [10]])) 1 10 5 = some 101 := rfl
example : signals (run (init []) (h1.take 5)) (.set none none 5 101) = [(2, 10, 5)] := rfl
example : getRegion (step (run (init []) (h1.take 5)) (.set none none 5 101)) 2 10 5 ≠
    getRegion (run (init []) (h1.take 5)) 2 10 5 := by decide
example : atRegion (run (init []) h1) 1 10 5 ≠ none := by decide
end Examples

end Verif.Params
