import Verif.Mesh2d.Regions

/-!
# C66: contacts and interfaces of a two-dimensional mesh

The loops over contacts and over interfaces are the same loop with other data.
-/

namespace Verif.Mesh2d
open Classical Verif.MeshIO

section
variable {δ κ β : Type} (ins : δ → Prop) (pick : δ → Option κ) (new : δ → β) (app : κ → β → β)

/-- The loop. -/
noncomputable def gtry : List (Text × δ) → SMap Text β → SMap Text β
  | [], M => M
  | (n, d) :: ds, M =>
    if ¬ ins d then gtry ds M
    else
      let M1 := if M.has n then M else M.put n (new d)
      match pick d with
      | some k => M1.mod n (app k)
      | none => gtry ds M1

/-- Who takes the point. -/
noncomputable def gpick : List (Text × δ) → Option (Text × κ)
  | [] => none
  | (n, d) :: ds =>
    if ¬ ins d then gpick ds
    else match pick d with
      | some k => some (n, k)
      | none => gpick ds

/-- The entry is asked: the point is inside and nobody before takes it. -/
def Asked (ds : List (Text × δ)) (n : Text) (d : δ) : Prop :=
  ∃ pre post, ds = pre ++ (n, d) :: post ∧ ins d ∧ gpick ins pick pre = none

variable {ins pick new app}

theorem gpick_none {ds : List (Text × δ)} : gpick ins pick ds = none ↔ ∀ e ∈ ds, ins e.2 → pick e.2 = none := by
  induction ds with
  | nil => simp [gpick]
  | cons e ds ih =>
    obtain ⟨n, d⟩ := e
    rw [gpick]
    by_cases hi : ins d
    · rw [if_neg (not_not.2 hi)]
      cases hp : pick d with
      | some k =>
        simp only [List.mem_cons, forall_eq_or_imp]
        constructor
        · intro h; simp at h
        · intro h; have := h.1 hi; rw [hp] at this; simp at this
      | none =>
        simp only [List.mem_cons, forall_eq_or_imp]
        rw [ih]
        exact ⟨fun h => ⟨fun _ => hp, h⟩, fun h => h.2⟩
    · rw [if_pos hi, ih]
      simp only [List.mem_cons, forall_eq_or_imp]
      exact ⟨fun h => ⟨fun hh => absurd hh hi, h⟩, fun h => h.2⟩

theorem gpick_some {ds : List (Text × δ)} {n : Text} {k : κ} : gpick ins pick ds = some (n, k) ↔
    ∃ pre post d, ds = pre ++ (n, d) :: post ∧ ins d ∧ pick d = some k ∧ gpick ins pick pre = none := by
  induction ds with
  | nil => simp [gpick]
  | cons e ds ih =>
    obtain ⟨n', d'⟩ := e
    rw [gpick]
    have hcons : ∀ (X : Prop), (gpick ins pick ds = some (n, k) ↔ X) → (∀ pre, gpick ins pick ((n', d') :: pre) = gpick ins pick pre) →
        (gpick ins pick ds = some (n, k) ↔
        ∃ pre post d, (n', d') :: ds = pre ++ (n, d) :: post ∧ ins d ∧ pick d = some k ∧ gpick ins pick pre = none) ∨
        (ins d' ∧ (pick d').isSome) := by
      intro X _ hpre
      by_cases hq : ins d' ∧ (pick d').isSome
      · exact .inr hq
      · left
        rw [ih]
        constructor
        · rintro ⟨pre, post, d, rfl, h1, h2, h3⟩
          exact ⟨(n', d') :: pre, post, d, rfl, h1, h2, by rw [hpre]; exact h3⟩
        · rintro ⟨pre, post, d, he, h1, h2, h3⟩
          cases pre with
          | nil =>
            simp only [List.nil_append, List.cons.injEq, Prod.mk.injEq] at he
            obtain ⟨⟨_, rfl⟩, _⟩ := he
            exact absurd ⟨h1, by rw [h2]; rfl⟩ hq
          | cons p pre =>
            simp only [List.cons_append, List.cons.injEq] at he
            obtain ⟨rfl, he⟩ := he
            rw [hpre] at h3
            exact ⟨pre, post, d, he, h1, h2, h3⟩
    by_cases hi : ins d'
    · rw [if_neg (not_not.2 hi)]
      cases hp : pick d' with
      | some k' =>
        dsimp only
        constructor
        · intro h
          simp only [Option.some.injEq, Prod.mk.injEq] at h
          obtain ⟨rfl, rfl⟩ := h
          exact ⟨[], ds, d', rfl, hi, hp, rfl⟩
        · rintro ⟨pre, post, d, he, h1, h2, h3⟩
          cases pre with
          | nil =>
            simp only [List.nil_append, List.cons.injEq, Prod.mk.injEq] at he
            obtain ⟨⟨rfl, rfl⟩, _⟩ := he
            rw [hp] at h2
            simp only [Option.some.injEq] at h2
            rw [h2]
          | cons p pre =>
            simp only [List.cons_append, List.cons.injEq] at he
            obtain ⟨rfl, he⟩ := he
            have := gpick_none.1 h3 (n', d') (by simp) hi
            dsimp only at this
            rw [hp] at this
            simp at this
      | none =>
        dsimp only
        rcases hcons _ ih (fun pre => by rw [gpick, if_neg (not_not.2 hi), hp]) with h | ⟨_, h⟩
        · exact h
        · rw [hp] at h; simp at h
    · rw [if_pos hi]
      rcases hcons _ ih (fun pre => by rw [gpick, if_pos hi]) with h | ⟨h, _⟩
      · exact h
      · exact absurd h hi

/-- What the loop does to the map. -/
theorem gtry_spec : ∀ (ds : List (Text × δ)) (M : SMap Text β), (ds.map Prod.fst).Nodup → SMap.Sorted M →
    SMap.Sorted (gtry ins pick new app ds M) ∧
    (∀ n d, Asked ins pick ds n d → SMap.get (gtry ins pick new app ds M) n =
      some (match gpick ins pick ds with
        | some (n', k) => if n' = n then app k ((M.get n).getD (new d)) else (M.get n).getD (new d)
        | none => (M.get n).getD (new d))) ∧
    (∀ n, (∀ d, ¬ Asked ins pick ds n d) → SMap.get (gtry ins pick new app ds M) n = M.get n) := by
  intro ds
  induction ds with
  | nil =>
    intro M _ hs
    refine ⟨hs, ?_, fun _ _ => rfl⟩
    rintro n d ⟨pre, post, he, _⟩
    simp at he
  | cons e ds ih =>
    obtain ⟨n0, d0⟩ := e
    intro M hnd hs
    rw [List.map_cons, List.nodup_cons] at hnd
    dsimp only at hnd
    have hn0 : ∀ d, ¬ Asked ins pick ds n0 d := by
      rintro d ⟨pre, post, rfl, _⟩
      exact hnd.1 (by simp)
    have hext : (∀ pre, gpick ins pick ((n0, d0) :: pre) = gpick ins pick pre) → ∀ n d, n ≠ n0 →
        (Asked ins pick ((n0, d0) :: ds) n d ↔ Asked ins pick ds n d) := by
      intro hpre n d hne
      constructor
      · rintro ⟨pre, post, he, h1, h2⟩
        cases pre with
        | nil =>
          simp only [List.nil_append, List.cons.injEq, Prod.mk.injEq] at he
          exact absurd he.1.1.symm hne
        | cons p pre =>
          simp only [List.cons_append, List.cons.injEq] at he
          obtain ⟨rfl, he⟩ := he
          rw [hpre] at h2
          exact ⟨pre, post, he, h1, h2⟩
      · rintro ⟨pre, post, rfl, h1, h2⟩
        exact ⟨(n0, d0) :: pre, post, rfl, h1, by rw [hpre]; exact h2⟩
    have hhead : ∀ d, Asked ins pick ((n0, d0) :: ds) n0 d → d = d0 ∧ ins d0 := by
      rintro d ⟨pre, post, he, h1, _⟩
      cases pre with
      | nil =>
        simp only [List.nil_append, List.cons.injEq, Prod.mk.injEq] at he
        obtain ⟨⟨_, rfl⟩, _⟩ := he
        exact ⟨rfl, h1⟩
      | cons p pre =>
        simp only [List.cons_append, List.cons.injEq] at he
        obtain ⟨_, rfl⟩ := he
        exact absurd (by simp) hnd.1
    rw [gtry, gpick]
    by_cases hi : ins d0
    · rw [if_neg (not_not.2 hi), if_neg (not_not.2 hi)]
      have hM1 : SMap.Sorted (if M.has n0 then M else M.put n0 (new d0)) := by
        split
        · exact hs
        · exact SMap.put_sorted hs _ _
      have hG1 : ∀ x, SMap.get (if M.has n0 then M else M.put n0 (new d0)) x =
          if x = n0 then some ((M.get n0).getD (new d0)) else M.get x := by
        intro x
        split
        · rename_i hh
          rw [← SMap.get_isSome] at hh
          obtain ⟨v, hv⟩ := Option.isSome_iff_exists.1 hh
          by_cases hx : x = n0
          · rw [if_pos hx, hx, hv]; rfl
          · rw [if_neg hx]
        · rename_i hh
          have hh' : M.get n0 = none := SMap.get_none_iff.2 (by simpa using hh)
          rw [SMap.get_put]
          by_cases hx : x = n0
          · rw [if_pos hx, if_pos hx, hh']; rfl
          · rw [if_neg hx, if_neg hx]
      generalize (if M.has n0 then M else M.put n0 (new d0)) = M1 at *
      dsimp only
      cases hp : pick d0 with
      | some k =>
        dsimp only
        refine ⟨sorted_mod hM1 _ _, ?_, ?_⟩
        · intro n d hA
          by_cases hne : n = n0
          · subst hne
            obtain ⟨rfl, _⟩ := hhead d hA
            rw [get_mod, if_pos rfl, hG1, if_pos rfl, if_pos rfl]; rfl
          · obtain ⟨pre, post, he, h1, h2⟩ := hA
            cases pre with
            | nil =>
              simp only [List.nil_append, List.cons.injEq, Prod.mk.injEq] at he
              exact absurd he.1.1.symm hne
            | cons p pre =>
              simp only [List.cons_append, List.cons.injEq] at he
              obtain ⟨rfl, he⟩ := he
              have := gpick_none.1 h2 (n0, d0) (by simp) hi
              dsimp only at this
              rw [hp] at this
              simp at this
        · intro n hA
          have hne : n ≠ n0 := by
            rintro rfl
            exact hA d0 ⟨[], ds, rfl, hi, rfl⟩
          rw [get_mod, if_neg hne, hG1, if_neg hne]
      | none =>
        dsimp only
        have hpre : ∀ pre, gpick ins pick ((n0, d0) :: pre) = gpick ins pick pre := fun pre => by
          rw [gpick, if_neg (not_not.2 hi), hp]
        obtain ⟨i1, i2, i3⟩ := ih M1 hnd.2 hM1
        refine ⟨i1, ?_, ?_⟩
        · intro n d hA
          by_cases hne : n = n0
          · subst hne
            obtain ⟨rfl, _⟩ := hhead d hA
            rw [i3 n hn0, hG1, if_pos rfl]
            congr 1
            cases hq : gpick ins pick ds with
            | none => rfl
            | some q =>
              obtain ⟨n', k⟩ := q
              dsimp only
              obtain ⟨pre, post, d', he, _⟩ := gpick_some.1 hq
              rw [if_neg]
              rintro rfl
              exact hnd.1 (by rw [he]; simp)
          · rw [i2 n d ((hext hpre n d hne).1 hA), hG1, if_neg hne]
        · intro n hA
          by_cases hne : n = n0
          · subst hne
            exact absurd ⟨[], ds, rfl, hi, rfl⟩ (hA d0)
          · rw [i3 n (fun d hd => hA d ((hext hpre n d hne).2 hd)), hG1, if_neg hne]
    · rw [if_pos hi, if_pos hi]
      have hpre : ∀ pre, gpick ins pick ((n0, d0) :: pre) = gpick ins pick pre := fun pre => by
        rw [gpick, if_pos hi]
      obtain ⟨i1, i2, i3⟩ := ih M hnd.2 hs
      refine ⟨i1, ?_, ?_⟩
      · intro n d hA
        by_cases hne : n = n0
        · subst hne
          exact absurd (hhead d hA).2 hi
        · exact i2 n d ((hext hpre n d hne).1 hA)
      · intro n hA
        by_cases hne : n = n0
        · subst hne; exact i3 n hn0
        · exact i3 n (fun d hd => hA d ((hext hpre n d hne).2 hd))

end

section
variable {δ κ β : Type} (act : Nat → Prop) (ins : Nat → δ → Prop) (pick : Nat → δ → Option κ) (new : δ → β) (app : κ → β → β)

/-- One coordinate. -/
noncomputable def gstep (ds : List (Text × δ)) (M : SMap Text β) (i : Nat) : SMap Text β :=
  if act i then gtry (ins i) (pick i) new app ds M else M

/-- What the coordinate `i` gives to the entry `n`. -/
noncomputable def gives (ds : List (Text × δ)) (n : Text) (i : Nat) : Option κ :=
  if act i then match gpick (ins i) (pick i) ds with
    | some (n', k) => if n' = n then some k else none
    | none => none
  else none

variable {act ins pick new app}

theorem gives_some {ds : List (Text × δ)} {n : Text} {i : Nat} {k : κ} :
    gives act ins pick ds n i = some k ↔ act i ∧ gpick (ins i) (pick i) ds = some (n, k) := by
  unfold gives
  by_cases ha : act i
  · rw [if_pos ha]
    cases hq : gpick (ins i) (pick i) ds with
    | none => simp
    | some q =>
      obtain ⟨n', k'⟩ := q
      dsimp only
      by_cases hn : n' = n
      · subst hn; simp [ha]
      · rw [if_neg hn]; simp [hn]
  · rw [if_neg ha]; simp [ha]

/-- All coordinates. -/
theorem gfold_spec {ds : List (Text × δ)} (hnd : (ds.map Prod.fst).Nodup) (is : List Nat) :
    SMap.Sorted (is.foldl (gstep act ins pick new app ds) []) ∧
    (∀ n d, (n, d) ∈ ds → SMap.get (is.foldl (gstep act ins pick new app ds) []) n =
      if ∃ i ∈ is, act i ∧ Asked (ins i) (pick i) ds n d then
        some ((is.filterMap (gives act ins pick ds n)).foldl (fun o k => app k o) (new d)) else none) ∧
    (∀ n, n ∉ ds.map Prod.fst → SMap.get (is.foldl (gstep act ins pick new app ds) []) n = none) := by
  have huniq : ∀ {n : Text} {d d' : δ}, (n, d) ∈ ds → (n, d') ∈ ds → d = d' := by
    intro n d d' h1 h2
    have := List.inj_on_of_nodup_map hnd h1 h2 rfl
    simpa using this
  induction is using List.reverseRecOn with
  | nil => simp [SMap.Sorted, SMap.get]
  | append_singleton is i ih =>
    obtain ⟨i1, i2, i3⟩ := ih
    rw [List.foldl_append, List.foldl_cons, List.foldl_nil]
    generalize is.foldl (gstep act ins pick new app ds) [] = M at *
    rw [gstep]
    by_cases ha : act i
    · rw [if_pos ha]
      obtain ⟨j1, j2, j3⟩ := gtry_spec (ins := ins i) (pick := pick i) (new := new) (app := app) ds M hnd i1
      refine ⟨j1, ?_, ?_⟩
      · intro n d hm
        by_cases hA : Asked (ins i) (pick i) ds n d
        · rw [j2 n d hA, if_pos ⟨i, by simp, ha, hA⟩]
          congr 1
          have hold : (M.get n).getD (new d) = (is.filterMap (gives act ins pick ds n)).foldl (fun o k => app k o) (new d) := by
            rw [i2 n d hm]
            split
            · rfl
            · rename_i hno
              have : is.filterMap (gives act ins pick ds n) = [] := by
                rw [List.filterMap_eq_nil_iff]
                intro j hj
                cases hg : gives act ins pick ds n j with
                | none => rfl
                | some k =>
                  obtain ⟨haj, hgj⟩ := gives_some.1 hg
                  obtain ⟨pre, post, d', he, h1, h2, h3⟩ := gpick_some.1 hgj
                  have hdd : d' = d := huniq (by rw [he]; simp) hm
                  subst hdd
                  exact absurd ⟨j, hj, haj, pre, post, he, h1, h3⟩ hno
              rw [this]; rfl
          rw [List.filterMap_append, List.foldl_append, ← hold]
          cases hq : gpick (ins i) (pick i) ds with
          | none =>
            have : gives act ins pick ds n i = none := by
              unfold gives; rw [if_pos ha, hq]
            simp [this]
          | some q =>
            obtain ⟨n', k⟩ := q
            dsimp only
            by_cases hn : n' = n
            · subst hn
              have := gives_some.2 ⟨ha, hq⟩
              rw [if_pos rfl]
              simp [this]
            · have : gives act ins pick ds n i = none := by
                unfold gives; rw [if_pos ha, hq]; simp [hn]
              rw [if_neg hn]
              simp [this]
        · have hA' : ∀ d', ¬ Asked (ins i) (pick i) ds n d' := by
            rintro d' hAd
            obtain ⟨pre, post, he, h1, h2⟩ := hAd
            have hdd : d' = d := huniq (by rw [he]; simp) hm
            subst hdd
            exact hA ⟨pre, post, he, h1, h2⟩
          rw [j3 n hA', i2 n d hm]
          have hg : gives act ins pick ds n i = none := by
            cases hg : gives act ins pick ds n i with
            | none => rfl
            | some k =>
              obtain ⟨pre, post, d', he, h1, h2, h3⟩ := gpick_some.1 (gives_some.1 hg).2
              exact absurd ⟨pre, post, he, h1, h3⟩ (hA' d')
          have he : (∃ j ∈ is ++ [i], act j ∧ Asked (ins j) (pick j) ds n d) ↔ ∃ j ∈ is, act j ∧ Asked (ins j) (pick j) ds n d := by
            constructor
            · rintro ⟨j, hj, h⟩
              rcases List.mem_append.1 hj with hj | hj
              · exact ⟨j, hj, h⟩
              · simp only [List.mem_singleton] at hj
                subst hj
                exact absurd h.2 hA
            · rintro ⟨j, hj, h⟩; exact ⟨j, List.mem_append_left _ hj, h⟩
          rw [List.filterMap_append]
          simp only [he, List.filterMap_cons, hg, List.filterMap_nil, List.append_nil]
      · intro n hn
        rw [j3 n ?_, i3 n hn]
        rintro d ⟨pre, post, rfl, _⟩
        exact hn (by simp)
    · rw [if_neg ha]
      refine ⟨i1, ?_, i3⟩
      intro n d hm
      rw [i2 n d hm]
      have hg : gives act ins pick ds n i = none := by unfold gives; rw [if_neg ha]
      have he : (∃ j ∈ is ++ [i], act j ∧ Asked (ins j) (pick j) ds n d) ↔ ∃ j ∈ is, act j ∧ Asked (ins j) (pick j) ds n d := by
        constructor
        · rintro ⟨j, hj, h⟩
          rcases List.mem_append.1 hj with hj | hj
          · exact ⟨j, hj, h⟩
          · simp only [List.mem_singleton] at hj
            subst hj
            exact absurd h.1 ha
        · rintro ⟨j, hj, h⟩; exact ⟨j, List.mem_append_left _ hj, h⟩
      rw [List.filterMap_append]
      simp only [he, List.filterMap_cons, hg, List.filterMap_nil, List.append_nil]

end

/-! ### The loops of the code -/

/-- The point of a coordinate is inside the boxes. -/
def insAt (coords : List (ℝ × ℝ × ℝ)) (i : Nat) (bs : List Box) : Prop := insideBoxes bs (at_ coords i).1 (at_ coords i).2.1

/-- The node of a contact. -/
noncomputable def conPick (known : Text → Prop) (cn : Text → Nat → Option Nat) (i : Nat) (c : ConDef) : Option Nat :=
  if known c.region then cn c.region i else none

/-- The node pair of an interface. -/
noncomputable def ifcPick (known : Text → Prop) (cn : Text → Nat → Option Nat) (i : Nat) (c : IfcDef) : Option (Nat × Nat) :=
  match (if known c.region0 ∧ known c.region1 then (cn c.region0 i, cn c.region1 i) else (none, none)) with
  | (some k0, some k1) => some (k0, k1)
  | _ => none

/-- A new contact. -/
def newCon (c : ConDef) : MCon ℝ := { region := c.region, material := c.material }

/-- A new interface. -/
def newIfc (c : IfcDef) : MIfc ℝ := { region0 := c.region0, region1 := c.region1 }

/-- A node more. -/
def appCon (k : Nat) (o : MCon ℝ) : MCon ℝ := { o with elems := { o.elems with nodes := o.elems.nodes ++ [k] } }

/-- A pair more. -/
def appIfc (k : Nat × Nat) (o : MIfc ℝ) : MIfc ℝ := { o with pairs := o.pairs ++ [k] }

theorem tryContacts_eq (coords : List (ℝ × ℝ × ℝ)) (known : Text → Prop) (cn : Text → Nat → Option Nat) (i : Nat) :
    ∀ (ds : List (Text × ConDef)) (L : Loader ℝ), tryContacts coords known cn i ds L =
      ({ L with contacts := gtry (fun c => insAt coords i c.boxes) (conPick known cn i) newCon appCon ds L.contacts },
        (gpick (fun c : ConDef => insAt coords i c.boxes) (conPick known cn i) ds).isSome) := by
  intro ds
  induction ds with
  | nil => intro L; rfl
  | cons e ds ih =>
    obtain ⟨n, c⟩ := e
    intro L
    rw [tryContacts, gtry, gpick]
    by_cases hi : insideBoxes c.boxes (at_ coords i).1 (at_ coords i).2.1
    · have hi' : insAt coords i c.boxes := hi
      simp only [hi, hi', not_true_eq_false, if_false]
      rw [show (if known c.region then cn c.region i else none) = conPick known cn i c from rfl]
      cases hp : conPick known cn i c with
      | some k =>
        dsimp only
        by_cases hh : L.contacts.has n = true
        · simp only [hh, if_true]; rfl
        · simp only [hh]; rfl
      | none =>
        dsimp only
        rw [ih]
        by_cases hh : L.contacts.has n = true
        · simp only [hh, if_true]
        · simp only [hh]; rfl
    · have hi' : ¬ insAt coords i c.boxes := hi
      simp only [hi, hi', not_false_eq_true, if_true]
      exact ih L

theorem tryIfaces_eq (coords : List (ℝ × ℝ × ℝ)) (known : Text → Prop) (cn : Text → Nat → Option Nat) (i : Nat) :
    ∀ (ds : List (Text × IfcDef)) (L : Loader ℝ), tryIfaces coords known cn i ds L =
      { L with ifaces := gtry (fun c => insAt coords i c.boxes) (ifcPick known cn i) newIfc appIfc ds L.ifaces } := by
  intro ds
  induction ds with
  | nil => intro L; rfl
  | cons e ds ih =>
    obtain ⟨n, c⟩ := e
    intro L
    rw [tryIfaces, gtry]
    by_cases hi : insideBoxes c.boxes (at_ coords i).1 (at_ coords i).2.1
    · have hi' : insAt coords i c.boxes := hi
      simp only [hi, hi', not_true_eq_false, if_false]
      unfold ifcPick
      generalize (if known c.region0 ∧ known c.region1 then (cn c.region0 i, cn c.region1 i) else (none, none)) = q
      obtain ⟨q0, q1⟩ := q
      by_cases hh : L.ifaces.has n = true
      · cases q0 <;> cases q1 <;> simp only [hh, if_true, ih] <;> rfl
      · cases q0 <;> cases q1 <;> simp only [hh, ih] <;> rfl
    · have hi' : ¬ insAt coords i c.boxes := hi
      simp only [hi, hi', not_false_eq_true, if_true]
      exact ih L

/-- When interfaces are looked at. -/
def ifcAct (coords : List (ℝ × ℝ × ℝ)) (m : Mesh2) (s : St) (i : Nat) : Prop :=
  s.cnt i > 1 ∧ gpick (fun c : ConDef => insAt coords i c.boxes) (conPick (fun r => r ∈ m.regions.map Prod.fst) s.cn i) m.contacts = none

theorem placeCoord_eq (m : Mesh2) (coords : List (ℝ × ℝ × ℝ)) (s : St) (L : Loader ℝ) (i : Nat) :
    placeCoord m coords s L i =
      { L with
        contacts := gstep (fun i => s.cnt i > 1) (fun i c => insAt coords i c.boxes)
          (conPick (fun r => r ∈ m.regions.map Prod.fst) s.cn) newCon appCon m.contacts L.contacts i
        ifaces := gstep (ifcAct coords m s) (fun i c => insAt coords i c.boxes)
          (ifcPick (fun r => r ∈ m.regions.map Prod.fst) s.cn) newIfc appIfc m.ifaces L.ifaces i } := by
  unfold placeCoord gstep ifcAct
  by_cases hc : s.cnt i > 1
  · simp only [hc, if_true, true_and]
    rw [tryContacts_eq]
    dsimp only
    cases hq : gpick (fun c : ConDef => insAt coords i c.boxes) (conPick (fun r => r ∈ m.regions.map Prod.fst) s.cn i) m.contacts with
    | some q => simp
    | none => simp [tryIfaces_eq]
  · simp only [hc, if_false, false_and]

theorem places_eq (m : Mesh2) (coords : List (ℝ × ℝ × ℝ)) (s : St) : ∀ (is : List Nat) (L : Loader ℝ),
    is.foldl (placeCoord m coords s) L =
      { L with
        contacts := is.foldl (gstep (fun i => s.cnt i > 1) (fun i c => insAt coords i c.boxes)
          (conPick (fun r => r ∈ m.regions.map Prod.fst) s.cn) newCon appCon m.contacts) L.contacts
        ifaces := is.foldl (gstep (ifcAct coords m s) (fun i c => insAt coords i c.boxes)
          (ifcPick (fun r => r ∈ m.regions.map Prod.fst) s.cn) newIfc appIfc m.ifaces) L.ifaces } := by
  intro is
  induction is with
  | nil => intro L; rfl
  | cons i is ih => intro L; rw [List.foldl_cons, ih, placeCoord_eq]; rfl

end Verif.Mesh2d
