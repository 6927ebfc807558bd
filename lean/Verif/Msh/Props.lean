import Verif.Msh.Spec

/-!
# C96: proofs
-/
namespace Verif.Msh
open Verif
open Verif.Mesh (Res Mesh1d)
open Verif.EqCmd (sortedKeys)
open Verif.Msh.Spec

/-- what `Finalize_` gets to see of what the mesh was told -/
noncomputable def bodyOf : Kind → Hist → Body
  | .one, l => .one ⟨lines l, regions l, contacts l, interfaces l⟩
  | .two, l => .two (Mesh2d.script {} (told2 l))
  | .gmsh, _ => .gmsh

/-- the finalization that made `F`, within the life `l`: after it every command about the mesh is refused -/
def MadeBy (E : Engine) (m : String) (k : Kind) (l : Hist) (F : Fin) : Prop :=
  ∃ post pre, l = post ++ (.finalize m, .ok) :: pre ∧ ¬ finalized pre ∧ (∀ e ∈ post, e.2 = .refused) ∧
    E.fin (failures pre) m (bodyOf k pre) = .ok F

/-- an entry of the list of meshes and the life of the mesh -/
structure Agrees (E : Engine) (m : String) (k : Kind) (l : Hist) (x : Msh) : Prop where
  body : x.body = bodyOf k l
  tries : x.tries = failures l
  fin : (x.fin = none ∧ ¬ finalized l) ∨ ∃ F, x.fin = some F ∧ MadeBy E m k l F
  good : ∀ e ∈ l, e.2 = .ok → good e.1 ∧ (describes e.1 = none ∨ describes e.1 = some k)

/-- the lists of the program and the history -/
structure Inv (E : Engine) (W : World) (h : Hist) : Prop where
  mesh : ∀ m, match life h m with
    | none => W.meshes.get m = none
    | some (k, l) => m ≠ "" ∧ ∃ x, W.meshes.get m = some x ∧ Agrees E m k l x
  dev : ∀ d, match origin h d with
    | none => W.devs.get d = none
    | some (a, m, k, l) => d ≠ "" ∧ ∃ F, MadeBy E m k l F ∧ (∀ e ∈ l, e.2 = .ok → good e.1) ∧ W.devs.get d = some (E.inst F d).2 ∧
        a = if (E.inst F d).1 then .ok else .failed
  wfm : W.meshes.WF
  wfd : W.devs.WF

theorem Inv.none {E : Engine} {W : World} {h : Hist} (I : Inv E W h) {m : String} (hm : life h m = none) : W.meshes.get m = none := by
  have := I.mesh m; rw [hm] at this; exact this

theorem Inv.some {E : Engine} {W : World} {h : Hist} (I : Inv E W h) {m : String} {k : Kind} {l : Hist} (hm : life h m = some (k, l)) :
    m ≠ "" ∧ ∃ x, W.meshes.get m = some x ∧ Agrees E m k l x := by
  have := I.mesh m; rw [hm] at this; exact this

theorem Inv.life_of {E : Engine} {W : World} {h : Hist} (I : Inv E W h) {m : String} {x : Msh} (hx : W.meshes.get m = .some x) :
    m ≠ "" ∧ ∃ k l, life h m = .some (k, l) ∧ Agrees E m k l x := by
  cases hl : life h m with
  | none => rw [I.none hl] at hx; cases hx
  | some p =>
    obtain ⟨k, l⟩ := p
    obtain ⟨h1, y, h2, h3⟩ := I.some hl
    rw [h2] at hx; cases hx
    exact ⟨h1, k, l, rfl, h3⟩

theorem told_cons {α : Type} (f : Cmd × Ans → Option α) (e : Cmd × Ans) (l : Hist) :
    (e :: l).reverse.filterMap f = l.reverse.filterMap f ++ (f e).toList := by
  rw [List.reverse_cons, List.filterMap_append]
  cases h : f e <;> simp [h]

theorem told_same {e : Cmd × Ans} {l : Hist} (h1 : lines (e :: l) = lines l) (h2 : regions (e :: l) = regions l)
    (h3 : contacts (e :: l) = contacts l) (h4 : interfaces (e :: l) = interfaces l) (h5 : told2 (e :: l) = told2 l) (k : Kind) :
    bodyOf k (e :: l) = bodyOf k l := by
  cases k <;> simp only [bodyOf, h1, h2, h3, h4, h5]

theorem not_ok_told {c : Cmd} {a : Ans} (ha : a ≠ .ok) (k : Kind) (l : Hist) : bodyOf k ((c, a) :: l) = bodyOf k l := by
  apply told_same
  · unfold lines; rw [told_cons]; cases a <;> first | exact absurd rfl ha | (cases c <;> exact List.append_nil _)
  · unfold regions; rw [told_cons]; cases a <;> first | exact absurd rfl ha | (cases c <;> exact List.append_nil _)
  · unfold contacts; rw [told_cons]; cases a <;> first | exact absurd rfl ha | (cases c <;> exact List.append_nil _)
  · unfold interfaces; rw [told_cons]; cases a <;> first | exact absurd rfl ha | (cases c <;> exact List.append_nil _)
  · unfold told2; rw [told_cons]; cases a <;> first | exact absurd rfl ha | (cases c <;> exact List.append_nil _)

theorem finalize_told (m : String) (a : Ans) (k : Kind) (l : Hist) : bodyOf k ((.finalize m, a) :: l) = bodyOf k l := by
  apply told_same
  · unfold lines; rw [told_cons]; exact List.append_nil _
  · unfold regions; rw [told_cons]; exact List.append_nil _
  · unfold contacts; rw [told_cons]; exact List.append_nil _
  · unfold interfaces; rw [told_cons]; exact List.append_nil _
  · unfold told2; rw [told_cons]; exact List.append_nil _

theorem failures_other {c : Cmd} {a : Ans} (h : a ≠ .failed) (l : Hist) : failures ((c, a) :: l) = failures l := by
  cases c <;> simp [failures, h]

theorem failures_describes {c : Cmd} {a : Ans} {k : Kind} (h : describes c = some k) (l : Hist) : failures ((c, a) :: l) = failures l := by
  cases c <;> simp_all [failures, describes]

theorem finalized_cons {e : Cmd × Ans} {l : Hist} : finalized (e :: l) ↔ (∃ m, e = (.finalize m, .ok)) ∨ finalized l := by
  constructor
  · rintro ⟨m, hm⟩
    rcases List.mem_cons.1 hm with h | h
    · exact .inl ⟨m, h.symm⟩
    · exact .inr ⟨m, h⟩
  · rintro (⟨m, rfl⟩ | ⟨m, h⟩)
    · exact ⟨m, by simp⟩
    · exact ⟨m, by simp [h]⟩

/-- a refused command -/
theorem Agrees.refused {E : Engine} {m : String} {k : Kind} {l : Hist} {x : Msh} (A : Agrees E m k l x) (c : Cmd) :
    Agrees E m k ((c, .refused) :: l) x where
  body := by rw [not_ok_told (by simp)]; exact A.body
  tries := by rw [failures_other (by simp)]; exact A.tries
  fin := by
    rcases A.fin with ⟨h1, h2⟩ | ⟨F, h1, post, pre, h2, h3, h4, h5⟩
    · refine .inl ⟨h1, ?_⟩
      rw [finalized_cons]
      rintro (⟨m, hm⟩ | h)
      · cases hm
      · exact h2 h
    · refine .inr ⟨F, h1, (c, .refused) :: post, pre, by rw [h2]; rfl, h3, ?_, h5⟩
      intro e he
      rcases List.mem_cons.1 he with rfl | he
      · rfl
      · exact h4 e he
  good := by
    intro e he ha
    rcases List.mem_cons.1 he with rfl | he
    · cases ha
    · exact A.good e he ha

/-- the lives, when the answer is not `ok` or the command is about a mesh -/
theorem life_refused (c : Cmd) (h : Hist) (m : String) : life ((c, .refused) :: h) m =
    if about c = some m then (life h m).map fun x => (x.1, (c, .refused) :: x.2) else life h m := by
  cases c <;> simp [life, about]

theorem origin_refused (c : Cmd) (h : Hist) (d : String) : origin ((c, .refused) :: h) d = origin h d := by
  cases c <;> simp [origin]

theorem Inv.refused {E : Engine} {W : World} {h : Hist} (I : Inv E W h) (c : Cmd) : Inv E W ((c, .refused) :: h) where
  mesh := by
    intro m
    rw [life_refused]
    split
    · rename_i r hr
      split at hr
      · cases hl : life h m with
        | none => exact I.none hl
        | some p => rw [hl] at hr; cases hr
      · exact I.none hr
    · rename_i k l hr
      split at hr
      · cases hl : life h m with
        | none => rw [hl] at hr; cases hr
        | some p =>
          obtain ⟨k', l'⟩ := p
          rw [hl] at hr
          simp only [Option.map_some, Option.some.injEq, Prod.mk.injEq] at hr
          obtain ⟨rfl, rfl⟩ := hr
          obtain ⟨h1, x, h2, h3⟩ := I.some hl
          exact ⟨h1, x, h2, h3.refused c⟩
      · exact I.some hr
  dev := by intro d; rw [origin_refused]; exact I.dev d
  wfm := I.wfm
  wfd := I.wfd

theorem life_about {c : Cmd} {m : String} (h : about c = some m) (a : Ans) (H : Hist) (m' : String) : life ((c, a) :: H) m' =
    if m = m' then (life H m').map fun x => (x.1, (c, a) :: x.2) else life H m' := by
  cases c <;> simp_all [life, about]

theorem origin_about {c : Cmd} {m : String} (h : about c = some m) (a : Ans) (H : Hist) (d : String) : origin ((c, a) :: H) d = origin H d := by
  cases c <;> simp_all [origin, about]

/-- a command about a mesh that changes its entry -/
theorem Inv.about {E : Engine} {W : World} {h : Hist} (I : Inv E W h) {c : Cmd} {a : Ans} {m : String} (hc : about c = .some m) {k : Kind} {l : Hist}
    (hl : life h m = .some (k, l)) {y : Msh} (A : Agrees E m k ((c, a) :: l) y) :
    Inv E { W with meshes := W.meshes.set m y } ((c, a) :: h) where
  mesh := by
    intro m'
    rw [life_about hc]
    dsimp only
    rw [FMap.get_set]
    by_cases hm : m = m'
    · subst hm
      rw [if_pos rfl, if_pos rfl, hl]
      exact ⟨(I.some hl).1, y, rfl, A⟩
    · rw [if_neg hm, if_neg (Ne.symm hm)]
      exact I.mesh m'
  dev := by intro d; rw [origin_about hc]; exact I.dev d
  wfm := I.wfm.set _ _
  wfd := I.wfd

theorem open_spec {E : Engine} {W : World} {h : Hist} (I : Inv E W h) {m : String} {x : Msh} (hx : open? W m = .some x) :
    ∃ k l, life h m = .some (k, l) ∧ ¬ finalized l ∧ x.fin = .none ∧ Agrees E m k l x := by
  unfold open? at hx
  split at hx
  · cases hx
  · split at hx
    · rename_i y hy
      split at hx
      · cases hx
      · rename_i hf
        cases hx
        obtain ⟨_, k, l, h1, h2⟩ := I.life_of hy
        rcases h2.fin with ⟨h3, h4⟩ | ⟨F, h3, _⟩
        · exact ⟨k, l, h1, h4, h3, h2⟩
        · rw [h3] at hf; simp at hf
    · cases hx

theorem open_iff {E : Engine} {W : World} {h : Hist} (I : Inv E W h) (m : String) :
    (∃ x, open? W m = .some x) ↔ ∃ k l, life h m = .some (k, l) ∧ ¬ finalized l := by
  constructor
  · rintro ⟨x, hx⟩
    obtain ⟨k, l, h1, h2, _⟩ := open_spec I hx
    exact ⟨k, l, h1, h2⟩
  · rintro ⟨k, l, h1, h2⟩
    obtain ⟨h3, x, h4, h5⟩ := I.some h1
    refine ⟨x, ?_⟩
    unfold open?
    rw [if_neg h3, h4]
    rcases h5.fin with ⟨h6, _⟩ | ⟨F, _, post, pre, h7, _⟩
    · simp [h6]
    · exact absurd ⟨m, by rw [h7]; simp⟩ h2

/-- an accepted description -/
theorem Agrees.told {E : Engine} {m : String} {k : Kind} {l : Hist} {x : Msh} (A : Agrees E m k l x) (hx : x.fin = .none) {c : Cmd} (hg : Spec.good c)
    (hd : describes c = .some k) {b : Body} (hb : b = bodyOf k ((c, .ok) :: l)) : Agrees E m k ((c, .ok) :: l) ⟨b, x.fin, x.tries⟩ where
  body := hb
  tries := by rw [failures_describes hd]; exact A.tries
  fin := by
    rcases A.fin with ⟨h1, h2⟩ | ⟨F, h1, _⟩
    · refine .inl ⟨h1, ?_⟩
      rw [finalized_cons]
      rintro (⟨m, hm⟩ | h)
      · cases hm; cases hd
      · exact h2 h
    · rw [h1] at hx; cases hx
  good := by
    intro e he ha
    rcases List.mem_cons.1 he with rfl | he
    · exact ⟨hg, .inr hd⟩
    · exact A.good e he ha

theorem bodyOf_one {k : Kind} {l : Hist} {o : One} (h : Body.one o = bodyOf k l) :
    k = .one ∧ o = ⟨lines l, regions l, contacts l, interfaces l⟩ := by
  cases k <;> simp_all [bodyOf]

theorem bodyOf_two {k : Kind} {l : Hist} {b : Mesh2d.Mesh2} (h : Body.two b = bodyOf k l) : k = .two ∧ b = Mesh2d.script {} (told2 l) := by
  cases k <;> simp_all [bodyOf]

theorem onOne_spec {E : Engine} {W : World} {h : Hist} (I : Inv E W h) {c : Cmd} {m : String} (hc : Spec.about c = .some m) (hg : Spec.good c)
    (hd : describes c = .some .one) {f : One → One}
    (hf : ∀ l, f ⟨lines l, regions l, contacts l, interfaces l⟩ =
      ⟨lines ((c, .ok) :: l), regions ((c, .ok) :: l), contacts ((c, .ok) :: l), interfaces ((c, .ok) :: l)⟩) :
    Inv E (onOne W m f).1 ((c, (onOne W m f).2) :: h) ∧
    ((onOne W m f).2 = .ok ↔ ∃ l, life h m = .some (.one, l) ∧ ¬ finalized l) ∧
    ((onOne W m f).2 ≠ .ok → onOne W m f = (W, .refused)) := by
  unfold onOne
  split
  · rename_i o fin t ho
    obtain ⟨k, l, h1, h2, h3, h4⟩ := open_spec I ho
    obtain ⟨rfl, rfl⟩ := bodyOf_one h4.body
    refine ⟨I.about hc h1 (h4.told h3 hg hd ?_), ⟨fun _ => ⟨l, h1, h2⟩, fun _ => rfl⟩, fun hn => absurd rfl hn⟩
    rw [hf]; rfl
  · rename_i hno
    refine ⟨I.refused c, ⟨fun hn => (by cases hn), ?_⟩, fun _ => rfl⟩
    rintro ⟨l, h1, h2⟩
    obtain ⟨x, hx⟩ := (open_iff I m).2 ⟨_, _, h1, h2⟩
    obtain ⟨k, l', h3, _, h4, h5⟩ := open_spec I hx
    rw [h1] at h3; cases h3
    obtain ⟨b, fin, t⟩ := x
    have := h5.body
    dsimp only [bodyOf] at this
    subst this
    exact absurd hx (hno _ _ _)

theorem script_snoc (cs : List Mesh2d.Cmd) (c : Mesh2d.Cmd) {b : Mesh2d.Mesh2} (h : Mesh2d.step (Mesh2d.script {} cs) c = .some b) :
    Mesh2d.script {} (cs ++ [c]) = b := by
  rw [Mesh2d.script_append]
  simp [Mesh2d.script, h]

theorem step2_good (b : Mesh2d.Mesh2) (m : String) (c : Mesh2d.Cmd) : (∃ b', Mesh2d.step b c = .some b') ↔ Spec.good (.add2 m c) := by
  cases c with
  | line d pos ps ns =>
    cases d <;> by_cases h : ps ≤ 0 <;> simp [Mesh2d.step, Spec.good, h, not_lt.2] <;> first | (intro hh; exact absurd h (not_le.2 hh)) | exact not_le.1 h
  | region n mat xl xh yl yh bl =>
    by_cases h : n = [] ∨ mat = []
    · simp only [Mesh2d.step, if_pos h, Spec.good]; simp; tauto
    · simp only [Mesh2d.step, if_neg h, Spec.good]; simp; tauto
  | contact n mat reg xl xh yl yh bl =>
    by_cases h : n = [] ∨ mat = [] ∨ reg = []
    · simp only [Mesh2d.step, if_pos h, Spec.good]; simp; tauto
    · simp only [Mesh2d.step, if_neg h, Spec.good]; simp; tauto
  | iface n r0 r1 xl xh yl yh bl =>
    by_cases h : n = [] ∨ r0 = [] ∨ r1 = []
    · simp only [Mesh2d.step, if_pos h, Spec.good]; simp; tauto
    · by_cases h2 : r0 = r1
      · simp only [Mesh2d.step, if_neg h, if_pos h2, Spec.good]; simp; tauto
      · simp only [Mesh2d.step, if_neg h, if_neg h2, Spec.good]; simp; tauto

/-- what holds after a description: it is in the history, and its answer -/
def DescOK (E : Engine) (W : World) (h : Hist) (c : Cmd) (m : String) (k : Kind) : Prop :=
  Inv E (step E W c).1 ((c, (step E W c).2) :: h) ∧
  ((step E W c).2 = .ok ↔ Spec.good c ∧ ∃ l, life h m = .some (k, l) ∧ ¬ finalized l) ∧
  ((step E W c).2 ≠ .ok → step E W c = (W, .refused))

theorem not_good_ok {E : Engine} {W : World} {h : Hist} (I : Inv E W h) {c : Cmd} {m : String} {k : Kind} (hs : step E W c = (W, .refused))
    (hg : ¬ Spec.good c) : DescOK E W h c m k := by
  unfold DescOK
  rw [hs]
  exact ⟨I.refused c, ⟨fun hn => (by cases hn), fun hh => absurd hh.1 hg⟩, fun _ => rfl⟩

theorem good_ok {E : Engine} {W : World} {h : Hist} {c : Cmd} {m : String} {k : Kind} (hg : Spec.good c)
    (hh : Inv E (step E W c).1 ((c, (step E W c).2) :: h) ∧ ((step E W c).2 = .ok ↔ ∃ l, life h m = .some (k, l) ∧ ¬ finalized l) ∧
      ((step E W c).2 ≠ .ok → step E W c = (W, .refused))) : DescOK E W h c m k :=
  ⟨hh.1, hh.2.1.trans ⟨fun x => ⟨hg, x⟩, fun x => x.2⟩, hh.2.2⟩

theorem describe_ok {E : Engine} {W : World} {h : Hist} (I : Inv E W h) {c : Cmd} {m : String} {k : Kind} (hc : Spec.about c = .some m)
    (hd : describes c = .some k) : DescOK E W h c m k := by
  cases c with
  | line m' tag pos ns ps =>
    cases hc; cases hd
    by_cases hp : ps ≤ 0
    · refine not_good_ok I ?_ (not_lt.2 hp)
      simp [step, addLine, Mesh.mkLine, hp]
    · refine good_ok (not_le.1 hp) ?_
      simp only [step, addLine, Mesh.mkLine, if_neg hp]
      refine onOne_spec (c := .line m tag pos ns ps) I rfl (show (0 : ℝ) < ps from not_le.1 hp) rfl fun l => ?_
      simp [lines, regions, contacts, interfaces, List.filterMap_append]
  | region m' n mat t1 t2 =>
    cases hc; cases hd
    by_cases hp : n = "" ∨ mat = "" ∨ t1 = "" ∨ t2 = ""
    · refine not_good_ok I (by simp [step, addRegion, hp]) (by simp only [Spec.good]; tauto)
    · have hg : Spec.good (.region m n mat t1 t2) := by simp only [Spec.good]; tauto
      refine good_ok hg ?_
      simp only [step, addRegion, if_neg hp]
      refine onOne_spec I rfl hg rfl fun l => ?_
      simp [lines, regions, contacts, interfaces, List.filterMap_append]
  | contact m' n mat t =>
    cases hc; cases hd
    by_cases hp : n = "" ∨ mat = "" ∨ t = ""
    · refine not_good_ok I (by simp [step, addContact, hp]) (by simp only [Spec.good]; tauto)
    · have hg : Spec.good (.contact m n mat t) := by simp only [Spec.good]; tauto
      refine good_ok hg ?_
      simp only [step, addContact, if_neg hp]
      refine onOne_spec I rfl hg rfl fun l => ?_
      simp [lines, regions, contacts, interfaces, List.filterMap_append]
  | interface m' n t =>
    cases hc; cases hd
    by_cases hp : n = "" ∨ t = ""
    · refine not_good_ok I (by simp [step, addInterface, hp]) (by simp only [Spec.good]; tauto)
    · have hg : Spec.good (.interface m n t) := by simp only [Spec.good]; tauto
      refine good_ok hg ?_
      simp only [step, addInterface, if_neg hp]
      refine onOne_spec I rfl hg rfl fun l => ?_
      simp [lines, regions, contacts, interfaces, List.filterMap_append]
  | add2 m' c =>
    cases hc; cases hd
    unfold DescOK
    simp only [step, add2]
    split
    · rename_i b fin t ho
      obtain ⟨k, l, h1, h2, h3, h4⟩ := open_spec I ho
      obtain ⟨rfl, rfl⟩ := bodyOf_two h4.body
      split
      · rename_i b' hb
        have hg : Spec.good (.add2 m c) := (step2_good _ _ _).1 ⟨_, hb⟩
        refine ⟨I.about rfl h1 (h4.told h3 hg rfl ?_), ⟨fun _ => ⟨hg, l, h1, h2⟩, fun _ => rfl⟩, fun hn => absurd rfl hn⟩
        simp only [bodyOf]
        congr 1
        rw [show told2 ((Cmd.add2 m c, Ans.ok) :: l) = told2 l ++ [c] by simp [told2, List.filterMap_append]]
        exact (script_snoc _ _ hb).symm
      · rename_i hb
        refine ⟨I.refused _, ⟨fun hn => (by cases hn), ?_⟩, fun _ => rfl⟩
        rintro ⟨hg, _⟩
        obtain ⟨b', hb'⟩ := (step2_good (Mesh2d.script {} (told2 l)) m c).2 hg
        rw [hb] at hb'; cases hb'
    · rename_i hno
      refine ⟨I.refused _, ⟨fun hn => (by cases hn), ?_⟩, fun _ => rfl⟩
      rintro ⟨_, l, h1, h2⟩
      obtain ⟨x, hx⟩ := (open_iff I m).2 ⟨_, _, h1, h2⟩
      obtain ⟨k, l', h3, _, h4, h5⟩ := open_spec I hx
      rw [h1] at h3; cases h3
      obtain ⟨b, fin, t⟩ := x
      have := h5.body
      dsimp only [bodyOf] at this
      subst this
      exact absurd hx (hno _ _ _)
  | _ => cases hd

end Verif.Msh
