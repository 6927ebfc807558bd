import Verif.Mesh2d.Device

/-!
# C66: the commands that describe a two-dimensional mesh
-/

namespace Verif.Mesh2d
open Classical Verif.MeshIO
open Verif.Mesh (Res)

/-! ### Entries -/

theorem setEntry_id {β : Type} (l : List (Text × β)) (n : Text) {f : β → β} (hf : ∀ b, f b = b) : setEntry l n f = l := by
  unfold setEntry
  conv_rhs => rw [← List.map_id l]
  apply List.map_congr_left
  rintro ⟨a, b⟩ _
  dsimp only
  split
  · rw [hf]; rfl
  · rfl

theorem setEntry_last {β : Type} {l : List (Text × β)} {n : Text} (hn : n ∉ l.map Prod.fst) (b : β) (f : β → β) :
    setEntry (l ++ [(n, b)]) n f = l ++ [(n, f b)] := by
  unfold setEntry
  rw [List.map_append]
  congr 1
  · conv_rhs => rw [← List.map_id l]
    apply List.map_congr_left
    rintro ⟨a, c⟩ h
    dsimp only
    rw [if_neg]
    · rfl
    · rintro rfl
      exact hn (List.mem_map_of_mem (f := Prod.fst) h)
  · simp

/-! ### What a command does -/

/-- **C66** A region that has a name already: nothing happens, and the command succeeds. -/
theorem step_region_again {m : Mesh2} {n mat : Text} (h0 : n ≠ []) (h1 : mat ≠ []) (hn : n ∈ m.regions.map Prod.fst)
    (xl xh yl yh b : ℝ) : step m (.region n mat xl xh yl yh b) = some m := by
  unfold step addRegion
  dsimp only
  rw [if_neg (by simp [h0, h1]), if_pos hn]
  simp only [Bool.false_eq_true, if_false, Option.some.injEq]
  rw [setEntry_id _ _ (by intro b; simp)]

theorem step_region_new {m : Mesh2} {n mat : Text} (h0 : n ≠ []) (h1 : mat ≠ []) (hn : n ∉ m.regions.map Prod.fst)
    (xl xh yl yh b : ℝ) : step m (.region n mat xl xh yl yh b) =
      some { m with regions := m.regions ++ [(n, ⟨mat, [mkBox xl xh yl yh b]⟩)] } := by
  unfold step addRegion
  dsimp only
  rw [if_neg (by simp [h0, h1]), if_neg hn]
  simp only [if_true, Option.some.injEq]
  rw [setEntry_last hn]
  rfl

theorem step_contact_again {m : Mesh2} {n mat reg : Text} (h0 : n ≠ []) (h1 : mat ≠ []) (h2 : reg ≠ [])
    (hn : n ∈ m.contacts.map Prod.fst) (xl xh yl yh b : ℝ) : step m (.contact n mat reg xl xh yl yh b) = some m := by
  unfold step addContact
  dsimp only
  rw [if_neg (by simp [h0, h1, h2]), if_pos hn]
  simp only [Bool.false_eq_true, if_false, Option.some.injEq]
  rw [setEntry_id _ _ (by intro b; simp)]

theorem step_contact_new {m : Mesh2} {n mat reg : Text} (h0 : n ≠ []) (h1 : mat ≠ []) (h2 : reg ≠ [])
    (hn : n ∉ m.contacts.map Prod.fst) (xl xh yl yh b : ℝ) : step m (.contact n mat reg xl xh yl yh b) =
      some { m with contacts := m.contacts ++ [(n, ⟨mat, reg, [mkBox xl xh yl yh b]⟩)] } := by
  unfold step addContact
  dsimp only
  rw [if_neg (by simp [h0, h1, h2]), if_neg hn]
  simp only [if_true, Option.some.injEq]
  rw [setEntry_last hn]
  rfl

theorem step_iface_again {m : Mesh2} {n r0 r1 : Text} (h0 : n ≠ []) (h1 : r0 ≠ []) (h2 : r1 ≠ []) (hr : r0 ≠ r1)
    (hn : n ∈ m.ifaces.map Prod.fst) (xl xh yl yh b : ℝ) : step m (.iface n r0 r1 xl xh yl yh b) = some m := by
  unfold step addIface
  dsimp only
  rw [if_neg (by simp [h0, h1, h2]), if_neg hr, if_pos hn]
  simp only [Bool.false_eq_true, if_false, Option.some.injEq]
  rw [setEntry_id _ _ (by intro b; simp)]

theorem step_iface_new {m : Mesh2} {n r0 r1 : Text} (h0 : n ≠ []) (h1 : r0 ≠ []) (h2 : r1 ≠ []) (hr : r0 ≠ r1)
    (hn : n ∉ m.ifaces.map Prod.fst) (xl xh yl yh b : ℝ) : step m (.iface n r0 r1 xl xh yl yh b) =
      some { m with ifaces := m.ifaces ++ [(n, ⟨r0, r1, [mkBox xl xh yl yh b]⟩)] } := by
  unfold step addIface
  dsimp only
  rw [if_neg (by simp [h0, h1, h2]), if_neg hr, if_neg hn]
  simp only [if_true, Option.some.injEq]
  rw [setEntry_last hn]
  rfl

/-! ### Specification: what a script describes -/

/-- The line a command describes. -/
inductive LineOf (d : Dir) : Cmd → Line → Prop
  | both {pos ps ns : ℝ} : 0 < ps → 0 < ns → LineOf d (.line d pos ps ns) ⟨pos, ps, ns⟩
  | one {pos ps ns : ℝ} : 0 < ps → ns ≤ 0 → LineOf d (.line d pos ps ns) ⟨pos, ps, ps⟩

/-- The region a command describes. -/
inductive RegionOf : Cmd → Text → RegDef → Prop
  | intro {n mat : Text} {xl xh yl yh b : ℝ} : n ≠ [] → mat ≠ [] →
    RegionOf (.region n mat xl xh yl yh b) n ⟨mat, [mkBox xl xh yl yh b]⟩

/-- The contact a command describes. -/
inductive ContactOf : Cmd → Text → ConDef → Prop
  | intro {n mat reg : Text} {xl xh yl yh b : ℝ} : n ≠ [] → mat ≠ [] → reg ≠ [] →
    ContactOf (.contact n mat reg xl xh yl yh b) n ⟨mat, reg, [mkBox xl xh yl yh b]⟩

/-- The interface a command describes. -/
inductive IfaceOf : Cmd → Text → IfcDef → Prop
  | intro {n r0 r1 : Text} {xl xh yl yh b : ℝ} : n ≠ [] → r0 ≠ [] → r1 ≠ [] → r0 ≠ r1 →
    IfaceOf (.iface n r0 r1 xl xh yl yh b) n ⟨r0, r1, [mkBox xl xh yl yh b]⟩

/-- The list of the things that commands describe, each name when it is described first. -/
inductive Firsts {β : Type} (P : Cmd → Text → β → Prop) : List Cmd → List (Text × β) → Prop
  | nil : Firsts P [] []
  | new {cs : List Cmd} {l : List (Text × β)} {c : Cmd} {n : Text} {b : β} : Firsts P cs l → P c n b → n ∉ l.map Prod.fst →
    Firsts P (cs ++ [c]) (l ++ [(n, b)])
  | again {cs : List Cmd} {l : List (Text × β)} {c : Cmd} {n : Text} {b : β} : Firsts P cs l → P c n b → n ∈ l.map Prod.fst →
    Firsts P (cs ++ [c]) l
  | other {cs : List Cmd} {l : List (Text × β)} {c : Cmd} : Firsts P cs l → (∀ n b, ¬ P c n b) → Firsts P (cs ++ [c]) l

theorem Firsts.nodup {β : Type} {P : Cmd → Text → β → Prop} {cs : List Cmd} {l : List (Text × β)} (h : Firsts P cs l) :
    (l.map Prod.fst).Nodup := by
  induction h with
  | nil => simp
  | new _ _ hn ih =>
    rw [List.map_append]
    refine List.Nodup.append ih (by simp) ?_
    intro x hx hy
    simp only [List.map_cons, List.map_nil, List.mem_singleton] at hy
    subst hy
    exact hn hx
  | again _ _ _ ih => exact ih
  | other _ _ ih => exact ih

theorem Firsts.mem {β : Type} {P : Cmd → Text → β → Prop} {cs : List Cmd} {l : List (Text × β)} (h : Firsts P cs l) {n : Text}
    {b : β} (hm : (n, b) ∈ l) : ∃ c ∈ cs, P c n b := by
  induction h with
  | nil => simp at hm
  | new _ hp _ ih =>
    rcases List.mem_append.1 hm with hm | hm
    · obtain ⟨c, hc, h⟩ := ih hm; exact ⟨c, by simp [hc], h⟩
    · simp only [List.mem_singleton, Prod.mk.injEq] at hm
      obtain ⟨rfl, rfl⟩ := hm
      exact ⟨_, by simp, hp⟩
  | again _ _ _ ih => obtain ⟨c, hc, h⟩ := ih hm; exact ⟨c, by simp [hc], h⟩
  | other _ _ ih => obtain ⟨c, hc, h⟩ := ih hm; exact ⟨c, by simp [hc], h⟩

theorem script_append (m : Mesh2) (cs ds : List Cmd) : script m (cs ++ ds) = script (script m cs) ds := by
  induction cs generalizing m with
  | nil => rfl
  | cons c cs ih => rw [List.cons_append, script, ih, script]

/-- What a script leaves in the mesh. -/
structure Says (cs : List Cmd) (m : Mesh2) : Prop where
  xlines : ∀ l, l ∈ m.xlines ↔ ∃ c ∈ cs, LineOf .x c l
  ylines : ∀ l, l ∈ m.ylines ↔ ∃ c ∈ cs, LineOf .y c l
  regions : Firsts RegionOf cs m.regions
  contacts : Firsts ContactOf cs m.contacts
  ifaces : Firsts IfaceOf cs m.ifaces

theorem lines_other {d : Dir} {cs : List Cmd} {c : Cmd} {ls : List Line} (h : ∀ l, l ∈ ls ↔ ∃ c ∈ cs, LineOf d c l)
    (hc : ∀ l, ¬ LineOf d c l) : ∀ l, l ∈ ls ↔ ∃ c' ∈ cs ++ [c], LineOf d c' l := by
  intro l
  rw [h]
  constructor
  · rintro ⟨c', hm, h⟩; exact ⟨c', by simp [hm], h⟩
  · rintro ⟨c', hm, h⟩
    rcases List.mem_append.1 hm with hm | hm
    · exact ⟨c', hm, h⟩
    · simp only [List.mem_singleton] at hm
      subst hm
      exact absurd h (hc l)

theorem lines_new {d : Dir} {cs : List Cmd} {pos ps ns : ℝ} {ls : List Line} (h : ∀ l, l ∈ ls ↔ ∃ c ∈ cs, LineOf d c l)
    (hp : 0 < ps) : ∀ l, l ∈ ls ++ [⟨pos, ps, if ns ≤ 0 then ps else ns⟩] ↔
      ∃ c' ∈ cs ++ [Cmd.line d pos ps ns], LineOf d c' l := by
  intro l
  rw [List.mem_append, h]
  constructor
  · rintro (⟨c', hm, h⟩ | hm)
    · exact ⟨c', by simp [hm], h⟩
    · simp only [List.mem_singleton] at hm
      subst hm
      refine ⟨_, List.mem_append_right _ (List.mem_singleton.2 rfl), ?_⟩
      by_cases hn : ns ≤ 0
      · rw [if_pos hn]; exact .one hp hn
      · rw [if_neg hn]; exact .both hp (not_le.1 hn)
  · rintro ⟨c', hm, h⟩
    rcases List.mem_append.1 hm with hm | hm
    · exact .inl ⟨c', hm, h⟩
    · right
      simp only [List.mem_singleton] at hm
      subst hm
      cases h with
      | both _ hn => rw [if_neg (not_le.2 hn)]; simp
      | one _ hn => rw [if_pos hn]; simp

/-- **C66** What a script describes.  Of several commands with one name, only the first counts. -/
theorem script_says (cs : List Cmd) : Says cs (script {} cs) := by
  induction cs using List.reverseRecOn with
  | nil =>
    exact ⟨by intro l; simp [script], by intro l; simp [script], .nil, .nil, .nil⟩
  | append_singleton cs c ih =>
    rw [script_append]
    generalize script {} cs = m at ih
    change Says (cs ++ [c]) ((step m c).getD m)
    have noL : ∀ d, (∀ a b e f, c ≠ .line a b e f) → ∀ l, ¬ LineOf d c l := by
      rintro d h l (_ | _) <;> exact h _ _ _ _ rfl
    have noR : (∀ a b e f g i j, c ≠ .region a b e f g i j) → ∀ n b, ¬ RegionOf c n b := by
      rintro h n b ⟨⟩; exact h _ _ _ _ _ _ _ rfl
    have noC : (∀ a b e f g i j k, c ≠ .contact a b e f g i j k) → ∀ n b, ¬ ContactOf c n b := by
      rintro h n b ⟨⟩; exact h _ _ _ _ _ _ _ _ rfl
    have noI : (∀ a b e f g i j k, c ≠ .iface a b e f g i j k) → ∀ n b, ¬ IfaceOf c n b := by
      rintro h n b ⟨⟩; exact h _ _ _ _ _ _ _ _ rfl
    cases c with
    | line d pos ps ns =>
      have r := ih.regions.other (noR (by simp))
      have k := ih.contacts.other (noC (by simp))
      have i := ih.ifaces.other (noI (by simp))
      by_cases hp : ps ≤ 0
      · have : step m (.line d pos ps ns) = none := by unfold step; dsimp only; rw [if_pos hp]
        rw [this]
        refine ⟨lines_other ih.xlines ?_, lines_other ih.ylines ?_, r, k, i⟩ <;> rintro l (_ | _) <;> linarith
      · have hp' := not_le.1 hp
        unfold step
        dsimp only
        rw [if_neg hp]
        cases d with
        | x => exact ⟨lines_new ih.xlines hp', lines_other ih.ylines (by rintro l ⟨⟩), r, k, i⟩
        | y => exact ⟨lines_other ih.xlines (by rintro l ⟨⟩), lines_new ih.ylines hp', r, k, i⟩
        | other => exact ⟨lines_other ih.xlines (by rintro l ⟨⟩), lines_other ih.ylines (by rintro l ⟨⟩), r, k, i⟩
    | region n mat xl xh yl yh b =>
      have x := lines_other ih.xlines (noL .x (by simp))
      have y := lines_other ih.ylines (noL .y (by simp))
      have k := ih.contacts.other (noC (by simp))
      have i := ih.ifaces.other (noI (by simp))
      by_cases h0 : n = [] ∨ mat = []
      · have : step m (.region n mat xl xh yl yh b) = none := by unfold step; dsimp only; rw [if_pos h0]
        rw [this]
        refine ⟨x, y, ih.regions.other ?_, k, i⟩
        rintro _ _ ⟨h1, h2⟩
        exact h0.elim h1 h2
      · rw [not_or] at h0
        by_cases hn : n ∈ m.regions.map Prod.fst
        · rw [step_region_again h0.1 h0.2 hn]
          exact ⟨x, y, ih.regions.again (.intro h0.1 h0.2) hn, k, i⟩
        · rw [step_region_new h0.1 h0.2 hn]
          exact ⟨x, y, ih.regions.new (.intro h0.1 h0.2) hn, k, i⟩
    | contact n mat reg xl xh yl yh b =>
      have x := lines_other ih.xlines (noL .x (by simp))
      have y := lines_other ih.ylines (noL .y (by simp))
      have r := ih.regions.other (noR (by simp))
      have i := ih.ifaces.other (noI (by simp))
      by_cases h0 : n = [] ∨ mat = [] ∨ reg = []
      · have : step m (.contact n mat reg xl xh yl yh b) = none := by unfold step; dsimp only; rw [if_pos h0]
        rw [this]
        refine ⟨x, y, r, ih.contacts.other ?_, i⟩
        rintro _ _ ⟨h1, h2, h3⟩
        exact h0.elim h1 (·.elim h2 h3)
      · rw [not_or, not_or] at h0
        by_cases hn : n ∈ m.contacts.map Prod.fst
        · rw [step_contact_again h0.1 h0.2.1 h0.2.2 hn]
          exact ⟨x, y, r, ih.contacts.again (.intro h0.1 h0.2.1 h0.2.2) hn, i⟩
        · rw [step_contact_new h0.1 h0.2.1 h0.2.2 hn]
          exact ⟨x, y, r, ih.contacts.new (.intro h0.1 h0.2.1 h0.2.2) hn, i⟩
    | iface n r0 r1 xl xh yl yh b =>
      have x := lines_other ih.xlines (noL .x (by simp))
      have y := lines_other ih.ylines (noL .y (by simp))
      have r := ih.regions.other (noR (by simp))
      have k := ih.contacts.other (noC (by simp))
      by_cases h0 : n = [] ∨ r0 = [] ∨ r1 = []
      · have : step m (.iface n r0 r1 xl xh yl yh b) = none := by unfold step; dsimp only; rw [if_pos h0]
        rw [this]
        refine ⟨x, y, r, k, ih.ifaces.other ?_⟩
        rintro _ _ ⟨h1, h2, h3, _⟩
        exact h0.elim h1 (·.elim h2 h3)
      · by_cases hr : r0 = r1
        · have : step m (.iface n r0 r1 xl xh yl yh b) = none := by unfold step; dsimp only; rw [if_neg h0, if_pos hr]
          rw [this]
          refine ⟨x, y, r, k, ih.ifaces.other ?_⟩
          rintro _ _ ⟨_, _, _, h4⟩
          exact h4 hr
        · rw [not_or, not_or] at h0
          by_cases hn : n ∈ m.ifaces.map Prod.fst
          · rw [step_iface_again h0.1 h0.2.1 h0.2.2 hr hn]
            exact ⟨x, y, r, k, ih.ifaces.again (.intro h0.1 h0.2.1 h0.2.2 hr) hn⟩
          · rw [step_iface_new h0.1 h0.2.1 h0.2.2 hr hn]
            exact ⟨x, y, r, k, ih.ifaces.new (.intro h0.1 h0.2.1 h0.2.2 hr) hn⟩

theorem Says.described {cs : List Cmd} {m : Mesh2} (h : Says cs m) : Described m :=
  ⟨h.regions.nodup, h.contacts.nodup, h.ifaces.nodup⟩

theorem Says.positive {cs : List Cmd} {m : Mesh2} (h : Says cs m) : Positive m.xlines ∧ Positive m.ylines := by
  have key : ∀ {d : Dir} {c : Cmd} {l : Line}, LineOf d c l → 0 < l.ps ∧ 0 < l.ns := by
    rintro d c l (⟨h1, h2⟩ | ⟨h1, _⟩)
    · exact ⟨h1, h2⟩
    · exact ⟨h1, h1⟩
  constructor
  · intro l hl
    obtain ⟨c, _, hc⟩ := (h.xlines l).1 hl
    exact key hc
  · intro l hl
    obtain ⟨c, _, hc⟩ := (h.ylines l).1 hl
    exact key hc

/-! ### From a script to a mesh -/

/-- **C66** A script, and the mesh that `finalize_mesh` makes of it. -/
theorem script_mesh {fuel : Nat} {sort : List Line → List Line} (hs : IsSort sort) (cs : List Cmd) {name : Text}
    {L : Loader ℝ} (h : finalize fuel sort name (script {} cs) = .ok L) :
    ∃ m xs ys, Says cs m ∧ GridOK m.xlines xs ∧ GridOK m.ylines ys ∧ MeshOK2 m xs ys L ∧ L.regions ≠ [] := by
  have S := script_says cs
  obtain ⟨xs, ys, h1, h2, h3, _, h5⟩ := finalize_spec hs S.positive.1 S.positive.2 S.described h
  exact ⟨_, xs, ys, S, h1, h2, h3, h5⟩

/-- **C66** A second rectangle for a region is lost, although the command succeeds: the mesh is the mesh without it. -/
theorem second_box_lost (cs ds : List Cmd) {n mat : Text} (h0 : n ≠ []) (h1 : mat ≠ []) (hn : ∃ c ∈ cs, ∃ d, RegionOf c n d)
    (xl xh yl yh b : ℝ) : script {} (cs ++ .region n mat xl xh yl yh b :: ds) = script {} (cs ++ ds) ∧
      (step (script {} cs) (.region n mat xl xh yl yh b)).isSome = true := by
  have hF : ∀ {cs : List Cmd} {l : List (Text × RegDef)}, Firsts RegionOf cs l → (∃ c ∈ cs, ∃ d, RegionOf c n d) →
      n ∈ l.map Prod.fst := by
    intro cs l hF
    induction hF with
    | nil => rintro ⟨c, hc, _⟩; simp at hc
    | @new cs l c n' b _ hp _ ih =>
      rintro ⟨c', hc, d, hd⟩
      rw [List.map_append]
      rcases List.mem_append.1 hc with hc | hc
      · exact List.mem_append_left _ (ih ⟨c', hc, d, hd⟩)
      · simp only [List.mem_singleton] at hc
        subst hc
        cases hp; cases hd
        simp
    | @again cs l c n' b _ hp hm ih =>
      rintro ⟨c', hc, d, hd⟩
      rcases List.mem_append.1 hc with hc | hc
      · exact ih ⟨c', hc, d, hd⟩
      · simp only [List.mem_singleton] at hc
        subst hc
        cases hp; cases hd
        exact hm
    | @other cs l c _ hp ih =>
      rintro ⟨c', hc, d, hd⟩
      rcases List.mem_append.1 hc with hc | hc
      · exact ih ⟨c', hc, d, hd⟩
      · simp only [List.mem_singleton] at hc
        subst hc
        exact absurd hd (hp _ _)
  have hm := hF (script_says cs).regions hn
  constructor
  · rw [script_append, script_append, script, step_region_again h0 h1 hm]
    rfl
  · rw [step_region_again h0 h1 hm]; rfl

/-! ### Contacts and interfaces need two regions -/

/-- **C66** A mesh with one region has no contacts and no interfaces, whatever was described. -/
theorem one_region_no_contacts {m : Mesh2} {xs ys : List ℝ} {L : Loader ℝ} (h : MeshOK2 m xs ys L) {n : Text} {d : RegDef}
    (h1 : m.regions = [(n, d)]) : L.contacts = [] ∧ L.ifaces = [] := by
  have noShared : ∀ p, ¬ Shared L p := by
    rintro p ⟨a, b, hne, ⟨k, ra, _, ha, _⟩, ⟨k', rb, _, hb, _⟩⟩
    obtain ⟨d1, g1, _⟩ := (h.region a ra ha).material
    obtain ⟨d2, g2, _⟩ := (h.region b rb hb).material
    rw [h1] at g1 g2
    simp only [List.mem_singleton, Prod.mk.injEq] at g1 g2
    exact hne (g1.1.trans g2.1.symm)
  constructor
  · by_contra hne
    obtain ⟨⟨c, o⟩, hc⟩ := List.exists_mem_of_ne_nil _ hne
    obtain ⟨p, hp, _⟩ := (h.con_iff c).1 ⟨o, SMap.get_of_mem (e := (c, o)) h.contacts_sorted hc⟩
    exact noShared p hp
  · by_contra hne
    obtain ⟨⟨c, o⟩, hc⟩ := List.exists_mem_of_ne_nil _ hne
    obtain ⟨p, hp, _⟩ := (h.ifc_iff c).1 ⟨o, SMap.get_of_mem (e := (c, o)) h.ifaces_sorted hc⟩
    exact noShared p hp

theorem mkContacts_false {rs : SMap Text (Reg ℝ)} : ∀ (l : SMap Text (MCon ℝ)) (acc : SMap Text Con),
    (∃ e ∈ l, mkContact rs e.2 = none) → (mkContacts rs l acc).1 = false
  | [], acc, h => by simp at h
  | e :: l, acc, h => by
    obtain ⟨n, c⟩ := e
    unfold mkContacts
    split
    · rfl
    · rename_i c' hc
      apply mkContacts_false
      obtain ⟨e, he, h⟩ := h
      rcases List.mem_cons.1 he with rfl | he
      · rw [hc] at h; cases h
      · exact ⟨e, he, h⟩

/-- **C66** A contact in the mesh that names a region the mesh does not have: `create_device` fails. -/
theorem device_refused {m : Mesh2} {xs ys : List ℝ} {L : Loader ℝ} (h : MeshOK2 m xs ys L) (hx : xs.Pairwise (· < ·))
    (hy : ys.Pairwise (· < ·)) {env : Env ℝ} (henv : ∀ k es ts, topo2 es ts = true → env.topoOK 2 k es ts [] = true)
    {dn : Text} {devs : Devs ℝ} {c : Text} {o : MCon ℝ} (hc : L.contacts.get c = some o) (hr : L.regions.get o.region = none) :
    (instantiate env { L with name := dn } devs).1 = .fail := by
  have hget : ∀ e ∈ L.regions, L.regions.get e.1 = some e.2 := fun e he => SMap.get_of_mem h.regions_sorted he
  unfold instantiate
  dsimp only
  split_ifs with h1 h2 h3 h4
  · rfl
  · exfalso
    apply h2
    rw [mkRegions_all L.regions [] h.regions_sorted (by simp) fun e he => asserts_true h hx hy henv (hget e he)]
  · rfl
  all_goals
    exfalso
    apply h3
    rw [mkRegions_all L.regions [] h.regions_sorted (by simp) fun e he => asserts_true h hx hy henv (hget e he)]
    apply mkContacts_false
    refine ⟨(c, o), SMap.mem_of_get hc, ?_⟩
    unfold mkContact
    rw [List.nil_append, SMap.get_map (fun _ (r : MReg ℝ) => r.topo.defaults env), hr]
    rfl

/-! ### Rectangles on the lines -/

theorem inside_mkBox {x0 x1 y0 y1 b x y : ℝ} : (mkBox x0 x1 y0 y1 b).inside x y ↔
    min x0 x1 - b < x ∧ x < max x0 x1 + b ∧ min y0 y1 - b < y ∧ y < max y0 y1 + b := by
  unfold Box.inside mkBox
  dsimp only
  have e1 : (if x0 > x1 then x1 else x0) = min x0 x1 := by
    split
    · rw [min_eq_right (by linarith)]
    · rw [min_eq_left (by linarith)]
  have e2 : (if x0 > x1 then x0 else x1) = max x0 x1 := by
    split
    · rw [max_eq_left (by linarith)]
    · rw [max_eq_right (by linarith)]
  have e3 : (if y0 > y1 then y1 else y0) = min y0 y1 := by
    split
    · rw [min_eq_right (by linarith)]
    · rw [min_eq_left (by linarith)]
  have e4 : (if y0 > y1 then y0 else y1) = max y0 y1 := by
    split
    · rw [max_eq_left (by linarith)]
    · rw [max_eq_right (by linarith)]
  rw [e1, e2, e3, e4]

/-- A point of the closed rectangle, without the margin. -/
def Box.has (b : Box) (p : ℝ × ℝ) : Prop := b.x0 ≤ p.1 ∧ p.1 ≤ b.x1 ∧ b.y0 ≤ p.2 ∧ p.2 ≤ b.y1

/-- The rectangle has its sides on grid lines, and its margin is at most a third of every cell. -/
structure Aligned (xs ys : List ℝ) (b : Box) : Prop where
  x0 : b.x0 ∈ xs
  x1 : b.x1 ∈ xs
  y0 : b.y0 ∈ ys
  y1 : b.y1 ∈ ys
  margin : 0 ≤ b.bloat
  xgap : ∀ u v, Next xs u v → 3 * b.bloat ≤ v - u
  ygap : ∀ u v, Next ys u v → 3 * b.bloat ≤ v - u

theorem Next.sep {xs : List ℝ} (h : xs.Pairwise (· < ·)) {a b x : ℝ} (hn : Next xs a b) (hx : x ∈ xs) : x ≤ a ∨ b ≤ x := by
  obtain ⟨i, e1, e2⟩ := hn
  obtain ⟨j, hj⟩ := List.mem_iff_getElem?.1 hx
  obtain ⟨i1, i2⟩ := List.getElem?_eq_some_iff.1 e1
  obtain ⟨k1, k2⟩ := List.getElem?_eq_some_iff.1 e2
  obtain ⟨j1, j2⟩ := List.getElem?_eq_some_iff.1 hj
  rw [List.pairwise_iff_getElem] at h
  rcases lt_trichotomy j i with hji | hji | hji
  · left; rw [← i2, ← j2]; exact (h j i j1 i1 hji).le
  · left; subst hji; rw [← i2, ← j2]
  · right
    rcases Nat.lt_or_ge (i + 1) j with hk | hk
    · rw [← k2, ← j2]; exact (h (i + 1) j k1 j1 hk).le
    · have : j = i + 1 := by omega
      subst this
      rw [← k2, ← j2]

theorem side_low {a b e s : ℝ} (hab : a < b) (hs : 0 ≤ s) (h3 : 3 * s ≤ b - a) (he : e ≤ a ∨ b ≤ e) {w : ℝ} (hw1 : 0 < w)
    (hw2 : 3 * w ≤ 2) (hw3 : 1 ≤ 3 * w) : (a + w * (b - a) > e - s ↔ e ≤ a) ∧ (a + w * (b - a) < e + s ↔ b ≤ e) := by
  have h1 : (b - a) ≤ 3 * w * (b - a) := by nlinarith
  have h2 : 3 * w * (b - a) ≤ 2 * (b - a) := by nlinarith
  constructor
  · constructor
    · intro h
      rcases he with he | he
      · exact he
      · exfalso; nlinarith
    · intro h; nlinarith
  · constructor
    · intro h
      rcases he with he | he
      · exfalso; nlinarith
      · exact he
    · intro h; nlinarith

/-- **C66** Rectangles with their sides on grid lines hold exactly the half cells that lie in them. -/
theorem aligned_box {xs ys : List ℝ} (hx : xs.Pairwise (· < ·)) (hy : ys.Pairwise (· < ·)) {b : Box} (hb : Aligned xs ys b)
    {p q r : ℝ × ℝ} (h : HalfCell xs ys p q r) :
    b.inside ((p.1 + q.1 + r.1) / 3) ((p.2 + q.2 + r.2) / 3) ↔ b.has p ∧ b.has q ∧ b.has r := by
  cases h with
  | @low u v c d h1 h2 =>
    have l1 := h1.lt hx
    have l2 := h2.lt hy
    have w : (0 : ℝ) < 1 / 3 ∧ 3 * (1 / 3 : ℝ) ≤ 2 ∧ (1 : ℝ) ≤ 3 * (1 / 3) := by norm_num
    have a1 := (side_low l1 hb.margin (hb.xgap u v h1) (h1.sep hx hb.x0) w.1 w.2.1 w.2.2).1
    have a2 := (side_low l1 hb.margin (hb.xgap u v h1) (h1.sep hx hb.x1) w.1 w.2.1 w.2.2).2
    have a3 := (side_low l2 hb.margin (hb.ygap c d h2) (h2.sep hy hb.y0) w.1 w.2.1 w.2.2).1
    have a4 := (side_low l2 hb.margin (hb.ygap c d h2) (h2.sep hy hb.y1) w.1 w.2.1 w.2.2).2
    have ex : (u + u + v) / 3 = u + 1 / 3 * (v - u) := by ring
    have ey : (c + d + c) / 3 = c + 1 / 3 * (d - c) := by ring
    unfold Box.inside Box.has
    dsimp only
    rw [ex, ey, a1, a2, a3, a4]
    constructor
    · rintro ⟨b1, b2, b3, b4⟩
      refine ⟨⟨?_, ?_, ?_, ?_⟩, ⟨?_, ?_, ?_, ?_⟩, ⟨?_, ?_, ?_, ?_⟩⟩ <;> linarith
    · rintro ⟨⟨b1, b2, b3, b4⟩, ⟨b5, b6, b7, b8⟩, ⟨b9, b10, b11, b12⟩⟩
      exact ⟨b1, b10, b3, b8⟩
  | @high u v c d h1 h2 =>
    have l1 := h1.lt hx
    have l2 := h2.lt hy
    have w : (0 : ℝ) < 2 / 3 ∧ 3 * (2 / 3 : ℝ) ≤ 2 ∧ (1 : ℝ) ≤ 3 * (2 / 3) := by norm_num
    have a1 := (side_low l1 hb.margin (hb.xgap u v h1) (h1.sep hx hb.x0) w.1 w.2.1 w.2.2).1
    have a2 := (side_low l1 hb.margin (hb.xgap u v h1) (h1.sep hx hb.x1) w.1 w.2.1 w.2.2).2
    have a3 := (side_low l2 hb.margin (hb.ygap c d h2) (h2.sep hy hb.y0) w.1 w.2.1 w.2.2).1
    have a4 := (side_low l2 hb.margin (hb.ygap c d h2) (h2.sep hy hb.y1) w.1 w.2.1 w.2.2).2
    have ex : (u + v + v) / 3 = u + 2 / 3 * (v - u) := by ring
    have ey : (d + c + d) / 3 = c + 2 / 3 * (d - c) := by ring
    unfold Box.inside Box.has
    dsimp only
    rw [ex, ey, a1, a2, a3, a4]
    constructor
    · rintro ⟨b1, b2, b3, b4⟩
      refine ⟨⟨?_, ?_, ?_, ?_⟩, ⟨?_, ?_, ?_, ?_⟩, ⟨?_, ?_, ?_, ?_⟩⟩ <;> linarith
    · rintro ⟨⟨b1, b2, b3, b4⟩, ⟨b5, b6, b7, b8⟩, ⟨b9, b10, b11, b12⟩⟩
      exact ⟨b1, b6, b7, b4⟩

end Verif.Mesh2d
