import Verif.Msh.Props
import Verif.Mat.Lists
import Verif.Mesh2d.Device

/-!
# C96: the history of a script, the answers, and what a device is made of
-/
namespace Verif.Msh
open Verif
open Verif.Mesh (Res Mesh1d)
open Verif.EqCmd (sortedKeys)
open Verif.Msh.Spec
open Verif.Mat.Spec (Lists)

theorem has_iff_get {V : Type} {m : FMap String V} {k : String} : m.has k = true ↔ (m.get k).isSome := Iff.rfl

theorem create_inv {E : Engine} {W : World} {h : Hist} (I : Inv E W h) (k : Kind) (m : String) :
    Inv E (create W k m).1 ((.create k m, (create W k m).2) :: h) ∧ ((create W k m).2 = .ok ↔ m ≠ "" ∧ life h m = none) ∧
    ((create W k m).2 ≠ .ok → create W k m = (W, .refused)) := by
  unfold create
  by_cases h0 : m = ""
  · rw [if_pos h0]
    exact ⟨I.refused _, ⟨fun hn => (by cases hn), fun hh => absurd h0 hh.1⟩, fun _ => rfl⟩
  · rw [if_neg h0]
    by_cases h1 : W.meshes.has m = true
    · rw [if_pos h1]
      refine ⟨I.refused _, ⟨fun hn => (by cases hn), fun hh => ?_⟩, fun _ => rfl⟩
      rw [has_iff_get, I.none hh.2] at h1
      cases h1
    · rw [if_neg h1]
      have hl : life h m = none := by
        cases hl : life h m with
        | none => rfl
        | some p =>
          obtain ⟨_, x, hx, _⟩ := I.some (k := p.1) (l := p.2) hl
          exact absurd (by rw [has_iff_get, hx]; rfl) h1
      refine ⟨⟨?_, ?_, I.wfm.set _ _, I.wfd⟩, ⟨fun _ => ⟨h0, hl⟩, fun _ => rfl⟩, fun hn => absurd rfl hn⟩
      · intro m'
        dsimp only
        rw [FMap.get_set]
        simp only [life]
        by_cases hm : m = m'
        · subst hm
          rw [if_pos rfl, if_pos rfl]
          refine ⟨h0, _, rfl, ?_, rfl, .inl ⟨rfl, ?_⟩, ?_⟩
          · cases k <;> simp [empty, bodyOf, lines, regions, contacts, interfaces, told2, Mesh2d.script]
          · rintro ⟨_, hx⟩; cases hx
          · intro e he; cases he
        · rw [if_neg hm, if_neg (Ne.symm hm)]
          exact I.mesh m'
      · intro d; simp only [origin]; exact I.dev d

theorem delete_inv {E : Engine} {W : World} {h : Hist} (I : Inv E W h) (m : String) :
    Inv E (delete W m).1 ((.delete m, (delete W m).2) :: h) ∧ ((delete W m).2 = .ok ↔ (life h m).isSome) ∧
    ((delete W m).2 ≠ .ok → delete W m = (W, .refused)) := by
  have hi : (life h m).isSome → m ≠ "" ∧ W.meshes.has m = true := by
    intro hh
    obtain ⟨p, hp⟩ := Option.isSome_iff_exists.1 hh
    obtain ⟨h1, x, hx, _⟩ := I.some (k := p.1) (l := p.2) hp
    exact ⟨h1, by rw [has_iff_get, hx]; rfl⟩
  unfold delete
  by_cases h0 : m = ""
  · rw [if_pos h0]
    exact ⟨I.refused _, ⟨fun hn => (by cases hn), fun hh => absurd h0 (hi hh).1⟩, fun _ => rfl⟩
  · rw [if_neg h0]
    by_cases h1 : W.meshes.has m = true
    · rw [if_pos h1]
      have hl : (life h m).isSome := by
        obtain ⟨x, hx⟩ := Option.isSome_iff_exists.1 (has_iff_get.1 h1)
        obtain ⟨_, k, l, hl, _⟩ := I.life_of hx
        rw [hl]; rfl
      refine ⟨⟨?_, ?_, I.wfm.erase _, I.wfd⟩, ⟨fun _ => hl, fun _ => rfl⟩, fun hn => absurd rfl hn⟩
      · intro m'
        dsimp only
        rw [FMap.get_erase]
        simp only [life]
        by_cases hm : m = m'
        · subst hm
          rw [if_pos rfl, if_pos rfl]
        · rw [if_neg hm, if_neg (Ne.symm hm)]
          exact I.mesh m'
      · intro d; simp only [origin]; exact I.dev d
    · rw [if_neg h1]
      exact ⟨I.refused _, ⟨fun hn => (by cases hn), fun hh => absurd (hi hh).2 h1⟩, fun _ => rfl⟩

theorem finalize_inv {E : Engine} {W : World} {h : Hist} (I : Inv E W h) (m : String) :
    Inv E (finalize E W m).1 ((.finalize m, (finalize E W m).2) :: h) ∧
    ((finalize E W m).2 = .ok ↔ ∃ k l F, life h m = some (k, l) ∧ ¬ finalized l ∧ E.fin (failures l) m (bodyOf k l) = .ok F) ∧
    ((finalize E W m).2 = .refused ↔ ¬ ∃ k l, life h m = some (k, l) ∧ ¬ finalized l) ∧
    ((finalize E W m).2 = .refused → (finalize E W m).1 = W) ∧ (finalize E W m).1.devs = W.devs := by
  unfold finalize
  split
  · rename_i ho
    have hno : ¬ ∃ k l, life h m = some (k, l) ∧ ¬ finalized l := by
      rw [← open_iff I m]; rintro ⟨x, hx⟩; rw [ho] at hx; cases hx
    refine ⟨I.refused _, ⟨fun hn => (by cases hn), ?_⟩, ⟨fun _ => hno, fun _ => rfl⟩, fun _ => rfl, rfl⟩
    rintro ⟨k, l, F, h1, h2, _⟩
    exact absurd ⟨k, l, h1, h2⟩ hno
  · rename_i x ho
    obtain ⟨k, l, h1, h2, h3, A⟩ := open_spec I ho
    rw [A.tries, A.body]
    have hyes : ¬ ¬ ∃ k l, life h m = some (k, l) ∧ ¬ finalized l := fun hh => hh ⟨k, l, h1, h2⟩
    split
    · rename_i F hF
      refine ⟨I.about rfl h1 ⟨?_, ?_, ?_, ?_⟩, ⟨fun _ => ⟨k, l, F, h1, h2, hF⟩, fun _ => rfl⟩, ⟨fun hn => (by cases hn), fun hn => absurd hn hyes⟩,
        fun hn => (by cases hn), rfl⟩
      · rw [finalize_told]
      · dsimp only; rw [failures_other (by simp)]
      · exact .inr ⟨F, rfl, [], l, rfl, h2, by simp, hF⟩
      · intro e he ha
        rcases List.mem_cons.1 he with rfl | he
        · exact ⟨trivial, .inl rfl⟩
        · exact A.good e he ha
    · rename_i hF
      refine ⟨I.about rfl h1 ⟨?_, ?_, ?_, ?_⟩, ⟨fun hn => (by cases hn), ?_⟩, ⟨fun hn => (by cases hn), fun hn => absurd hn hyes⟩,
        fun hn => (by cases hn), rfl⟩
      · rw [finalize_told]
      · dsimp only; simp [failures]
      · refine .inl ⟨h3, ?_⟩
        rw [finalized_cons]
        rintro (⟨m, hm⟩ | hh)
        · cases hm
        · exact h2 hh
      · intro e he ha
        rcases List.mem_cons.1 he with rfl | he
        · cases ha
        · exact A.good e he ha
      · rintro ⟨k', l', F, g1, g2, g3⟩
        rw [h1] at g1; cases g1
        exact absurd g3 (hF F)

theorem device_inv {E : Engine} {W : World} {h : Hist} (I : Inv E W h) (m d : String) :
    Inv E (device E W m d).1 ((.device m d, (device E W m d).2) :: h) ∧
    ((device E W m d).2 ≠ .refused ↔ d ≠ "" ∧ origin h d = none ∧ ∃ k l, life h m = some (k, l) ∧ finalized l) ∧
    ((device E W m d).2 = .refused → (device E W m d).1 = W) ∧ (device E W m d).1.meshes = W.meshes := by
  unfold device
  by_cases h0 : m = "" ∨ d = ""
  · rw [if_pos h0]
    refine ⟨I.refused _, ⟨fun hn => absurd rfl hn, ?_⟩, fun _ => rfl, rfl⟩
    rintro ⟨h1, _, k, l, h2, _⟩
    exact absurd (h0.resolve_right h1) (I.some h2).1
  · rw [if_neg h0]
    split
    · rename_i hm
      refine ⟨I.refused _, ⟨fun hn => absurd rfl hn, ?_⟩, fun _ => rfl, rfl⟩
      rintro ⟨_, _, k, l, h2, _⟩
      obtain ⟨_, x, hx, _⟩ := I.some h2
      rw [hx] at hm; cases hm
    · rename_i x hx
      obtain ⟨_, k, l, hl, A⟩ := I.life_of hx
      split
      · rename_i hf
        refine ⟨I.refused _, ⟨fun hn => absurd rfl hn, ?_⟩, fun _ => rfl, rfl⟩
        rintro ⟨_, _, k', l', h2, h3⟩
        rw [hl] at h2; cases h2
        rcases A.fin with ⟨_, h4⟩ | ⟨F, h4, _⟩
        · exact absurd h3 h4
        · rw [h4] at hf; cases hf
      · rename_i F hf
        obtain ⟨hfin, hmade⟩ : finalized l ∧ MadeBy E m k l F := by
          rcases A.fin with ⟨h4, _⟩ | ⟨F', h4, h5⟩
          · rw [h4] at hf; cases hf
          · rw [h4] at hf; cases hf
            obtain ⟨post, pre, h6, _⟩ := id h5
            exact ⟨⟨m, by rw [h6]; simp⟩, h5⟩
        by_cases hd : W.devs.has d = true
        · rw [if_pos hd]
          refine ⟨I.refused _, ⟨fun hn => absurd rfl hn, ?_⟩, fun _ => rfl, rfl⟩
          rintro ⟨_, ho, _⟩
          have := I.dev d
          rw [ho] at this
          rw [has_iff_get, this] at hd; cases hd
        · rw [if_neg hd]
          have ho : origin h d = none := by
            cases ho : origin h d with
            | none => rfl
            | some p =>
              have := I.dev d
              rw [ho] at this
              obtain ⟨_, F, _, _, hx, _⟩ := this
              exact absurd (by rw [has_iff_get, hx]; rfl) hd
          have hnr : (if (E.inst F d).1 = true then Ans.ok else Ans.failed) ≠ .refused := by split <;> simp
          refine ⟨⟨?_, ?_, I.wfm, I.wfd.set _ _⟩, ⟨fun _ => ⟨fun hh => h0 (.inr hh), ho, k, l, hl, hfin⟩, fun _ => hnr⟩, fun hn => absurd hn hnr, rfl⟩
          · intro m'
            have : life ((Cmd.device m d, if (E.inst F d).1 = true then Ans.ok else Ans.failed) :: h) m' = life h m' := by
              simp [life, about]
            dsimp only
            rw [this]
            exact I.mesh m'
          · intro d'
            simp only [origin]
            rw [FMap.get_set]
            by_cases hdd : d = d'
            · subst hdd
              rw [if_pos ⟨rfl, hnr⟩, if_pos rfl, hl]
              exact ⟨fun hh => h0 (.inr hh), F, hmade, fun e he ha => (A.good e he ha).1, rfl, rfl⟩
            · rw [if_neg (fun hh => hdd hh.1), if_neg (Ne.symm hdd)]
              exact I.dev d'

theorem deleteDevice_inv {E : Engine} {W : World} {h : Hist} (I : Inv E W h) (d : String) :
    Inv E (deleteDevice W d).1 ((.deleteDevice d, (deleteDevice W d).2) :: h) ∧ ((deleteDevice W d).2 = .ok ↔ (origin h d).isSome) ∧
    ((deleteDevice W d).2 ≠ .ok → deleteDevice W d = (W, .refused)) ∧ (deleteDevice W d).1.meshes = W.meshes := by
  have hi : (origin h d).isSome → d ≠ "" ∧ W.devs.has d = true := by
    intro hh
    obtain ⟨p, hp⟩ := Option.isSome_iff_exists.1 hh
    have := I.dev d
    rw [hp] at this
    obtain ⟨h1, F, _, _, hx, _⟩ := this
    exact ⟨h1, by rw [has_iff_get, hx]; rfl⟩
  unfold deleteDevice
  by_cases h0 : d = ""
  · rw [if_pos h0]
    exact ⟨I.refused _, ⟨fun hn => (by cases hn), fun hh => absurd h0 (hi hh).1⟩, fun _ => rfl, rfl⟩
  · rw [if_neg h0]
    by_cases h1 : W.devs.has d = true
    · rw [if_pos h1]
      have hl : (origin h d).isSome := by
        cases ho : origin h d with
        | none =>
          have := I.dev d
          rw [ho] at this
          rw [has_iff_get, this] at h1; cases h1
        | some p => rfl
      refine ⟨⟨?_, ?_, I.wfm, I.wfd.erase _⟩, ⟨fun _ => hl, fun _ => rfl⟩, fun hn => absurd rfl hn, rfl⟩
      · intro m'
        have : life ((Cmd.deleteDevice d, Ans.ok) :: h) m' = life h m' := by simp [life, about]
        dsimp only
        rw [this]
        exact I.mesh m'
      · intro d'
        simp only [origin]
        rw [FMap.get_erase]
        by_cases hdd : d = d'
        · subst hdd
          rw [if_pos rfl, if_pos rfl]
        · rw [if_neg hdd, if_neg (Ne.symm hdd)]
          exact I.dev d'
    · rw [if_neg h1]
      exact ⟨I.refused _, ⟨fun hn => (by cases hn), fun hh => absurd (hi hh).2 h1⟩, fun _ => rfl, rfl⟩

theorem step_inv {E : Engine} {W : World} {h : Hist} (I : Inv E W h) (c : Cmd) : Inv E (step E W c).1 ((c, (step E W c).2) :: h) := by
  cases c with
  | create k m => exact (create_inv I k m).1
  | finalize m => exact (finalize_inv I m).1
  | delete m => exact (delete_inv I m).1
  | device m d => exact (device_inv I m d).1
  | deleteDevice d => exact (deleteDevice_inv I d).1
  | line m tag pos ns ps => exact (describe_ok I (c := .line m tag pos ns ps) rfl rfl).1
  | region m n mat t1 t2 => exact (describe_ok I (c := .region m n mat t1 t2) rfl rfl).1
  | contact m n mat t => exact (describe_ok I (c := .contact m n mat t) rfl rfl).1
  | interface m n t => exact (describe_ok I (c := .interface m n t) rfl rfl).1
  | add2 m c => exact (describe_ok I (c := .add2 m c) rfl rfl).1

theorem run_inv {E : Engine} : ∀ (cs : List Cmd) {W : World} {h : Hist}, Inv E W h → Inv E (run E W h cs).1 (run E W h cs).2
  | [], _, _, I => I
  | c :: cs, _, _, I => run_inv cs (step_inv I c)

theorem start_inv (E : Engine) (cs : List Cmd) : Inv E (start E cs).1 (start E cs).2 :=
  run_inv cs ⟨fun _ => rfl, fun _ => rfl, FMap.WF.nil, FMap.WF.nil⟩

/-- the history is the script with its answers -/
theorem history {E : Engine} : ∀ (cs : List Cmd) {W : World} {h : Hist}, (run E W h cs).2.map (·.1) = cs.reverse ++ h.map (·.1)
  | [], _, _ => rfl
  | c :: cs, W, h => by
    rw [run, history cs]
    simp

/-- **C96** `create_1d_mesh`, `create_2d_mesh`, `create_gmsh_mesh`: done for a name that is free. -/
theorem create_answer (E : Engine) (cs : List Cmd) (k : Kind) (m : String) :
    (step E (start E cs).1 (.create k m)).2 = .ok ↔ m ≠ "" ∧ life (start E cs).2 m = none := (create_inv (start_inv E cs) k m).2.1

/-- **C96** A command that describes a mesh is done exactly if its arguments are good and the mesh is there, of the kind the command
is for, and not finalized. -/
theorem describe_answer (E : Engine) (cs : List Cmd) (c : Cmd) {m : String} {k : Kind} (hc : about c = some m) (hd : describes c = some k) :
    (step E (start E cs).1 c).2 = .ok ↔ good c ∧ ∃ l, life (start E cs).2 m = some (k, l) ∧ ¬ finalized l :=
  (describe_ok (start_inv E cs) hc hd).2.1

/-- **C96** `finalize_mesh` is refused exactly if there is no such mesh or it is finalized. -/
theorem finalize_answer (E : Engine) (cs : List Cmd) (m : String) :
    (step E (start E cs).1 (.finalize m)).2 = .refused ↔ ¬ ∃ k l, life (start E cs).2 m = some (k, l) ∧ ¬ finalized l :=
  (finalize_inv (start_inv E cs) m).2.2.1

/-- **C96** `delete_mesh` is done exactly if there is such a mesh. -/
theorem delete_answer (E : Engine) (cs : List Cmd) (m : String) :
    (step E (start E cs).1 (.delete m)).2 = .ok ↔ (life (start E cs).2 m).isSome := (delete_inv (start_inv E cs) m).2.1

/-- **C96** `create_device` is begun exactly if the mesh is there and finalized and the name of the device is free. -/
theorem device_answer (E : Engine) (cs : List Cmd) (m d : String) :
    (step E (start E cs).1 (.device m d)).2 ≠ .refused ↔
      d ≠ "" ∧ origin (start E cs).2 d = none ∧ ∃ k l, life (start E cs).2 m = some (k, l) ∧ finalized l :=
  (device_inv (start_inv E cs) m d).2.1

/-- **C96** `delete_device` is done exactly if there is such a device. -/
theorem deleteDevice_answer (E : Engine) (cs : List Cmd) (d : String) :
    (step E (start E cs).1 (.deleteDevice d)).2 = .ok ↔ (origin (start E cs).2 d).isSome := (deleteDevice_inv (start_inv E cs) d).2.1

/-- **C96** A refused command changes nothing; and only `finalize_mesh` and `create_device` can fail at work. -/
theorem refused_nothing (E : Engine) (cs : List Cmd) (c : Cmd) : ((step E (start E cs).1 c).2 = .refused → (step E (start E cs).1 c).1 = (start E cs).1) ∧
    ((step E (start E cs).1 c).2 = .failed → (∃ m, c = .finalize m) ∨ ∃ m d, c = .device m d) := by
  have I := start_inv E cs
  have key : ∀ {X : World × Ans}, (X.2 ≠ .ok → X = ((start E cs).1, .refused)) → (X.2 = .refused → X.1 = (start E cs).1) ∧ X.2 ≠ .failed := by
    intro X hX
    refine ⟨fun hr => ?_, fun hr => ?_⟩
    · rw [hX (by rw [hr]; simp)]
    · have := hX (by rw [hr]; simp)
      rw [this] at hr; cases hr
  have desc : ∀ {m k}, about c = some m → describes c = some k →
      ((step E (start E cs).1 c).2 = .refused → (step E (start E cs).1 c).1 = (start E cs).1) ∧
    ((step E (start E cs).1 c).2 = .failed → (∃ m, c = .finalize m) ∨ ∃ m d, c = .device m d) := by
    intro m k h1 h2
    have := key (describe_ok I h1 h2).2.2
    exact ⟨this.1, fun hh => absurd hh this.2⟩
  cases c with
  | create k m => have := key (create_inv I k m).2.2; exact ⟨this.1, fun hh => absurd hh this.2⟩
  | finalize m => exact ⟨(finalize_inv I m).2.2.2.1, fun _ => .inl ⟨m, rfl⟩⟩
  | delete m => have := key (delete_inv I m).2.2; exact ⟨this.1, fun hh => absurd hh this.2⟩
  | device m d => exact ⟨(device_inv I m d).2.2.1, fun _ => .inr ⟨m, d, rfl⟩⟩
  | deleteDevice d => have := key (deleteDevice_inv I d).2.2.1; exact ⟨this.1, fun hh => absurd hh this.2⟩
  | line m tag pos ns ps => exact desc rfl rfl
  | region m n mat t1 t2 => exact desc rfl rfl
  | contact m n mat t => exact desc rfl rfl
  | interface m n t => exact desc rfl rfl
  | add2 m c => exact desc rfl rfl

/-- **C96** `get_mesh_list` and `get_device_list`: what there is, in order. -/
theorem lists (E : Engine) (cs : List Cmd) : Lists (meshList (start E cs).1) (fun m => (life (start E cs).2 m).isSome) ∧
    Lists (deviceList (start E cs).1) (fun d => (origin (start E cs).2 d).isSome) := by
  have I := start_inv E cs
  obtain ⟨a1, a2, a3⟩ := Mat.sorted_lists I.wfm
  obtain ⟨b1, b2, b3⟩ := Mat.sorted_lists I.wfd
  refine ⟨⟨a1, a2, fun m => (a3 m).trans (show m ∈ FMap.keys _ ↔ _ from ?_)⟩, ⟨b1, b2, fun d => (b3 d).trans (show d ∈ FMap.keys _ ↔ _ from ?_)⟩⟩
  · rw [FMap.mem_keys]
    show (FMap.get _ m).isSome = true ↔ (life (start E cs).2 m).isSome = true
    have := I.mesh m
    revert this
    cases life (start E cs).2 m with
    | none => intro hh; rw [show FMap.get _ m = none from hh]; exact Iff.rfl
    | some p => rintro ⟨_, x, hx, _⟩; rw [hx]; exact Iff.rfl
  · rw [FMap.mem_keys]
    show (FMap.get _ d).isSome = true ↔ (origin (start E cs).2 d).isSome = true
    have := I.dev d
    revert this
    cases origin (start E cs).2 d with
    | none => intro hh; rw [show FMap.get _ d = none from hh]; exact Iff.rfl
    | some p => rintro ⟨_, F, _, _, hx, _⟩; rw [hx]; exact Iff.rfl

/-- **C96** After a mesh has been finalized nothing more is told to it. -/
theorem closed (E : Engine) (cs : List Cmd) {m : String} {k : Kind} {l : Hist} (hl : life (start E cs).2 m = some (k, l)) (hf : finalized l) :
    ∃ post pre, l = post ++ (.finalize m, .ok) :: pre ∧ ¬ finalized pre ∧ ∀ e ∈ post, e.2 = .refused := by
  obtain ⟨_, x, _, A⟩ := (start_inv E cs).some hl
  rcases A.fin with ⟨_, h⟩ | ⟨F, _, post, pre, h1, h2, h3, _⟩
  · exact absurd hf h
  · exact ⟨post, pre, h1, h2, h3⟩

/-! ### What a device is made of -/

theorem told_post {m : String} {k : Kind} {pre : Hist} : ∀ {post : Hist}, (∀ e ∈ post, e.2 = .refused) →
    bodyOf k (post ++ (.finalize m, .ok) :: pre) = bodyOf k pre ∧ failures (post ++ (.finalize m, .ok) :: pre) = failures pre
  | [], _ => ⟨finalize_told m _ k pre, failures_other (by simp) pre⟩
  | (c, a) :: post, h => by
    have ha : a = .refused := h (c, a) (by simp)
    subst ha
    have ih := told_post (m := m) (k := k) (pre := pre) (post := post) fun e he => h e (by simp [he])
    rw [List.cons_append, not_ok_told (by simp), failures_other (by simp)]
    exact ih

/-- **C96** The device a name stands for is the one `Instantiate_` made, under this name, of what `Finalize_` made of what the mesh had been told when
it was finalized: whatever has happened to the mesh, to other meshes and to other devices since. -/
theorem device_content (E : Engine) (cs : List Cmd) {d m : String} {a : Ans} {k : Kind} {l : Hist}
    (ho : origin (start E cs).2 d = some (a, m, k, l)) :
    ∃ F, E.fin (failures l) m (bodyOf k l) = .ok F ∧ (start E cs).1.devs.get d = some (E.inst F d).2 ∧
      a = (if (E.inst F d).1 then .ok else .failed) ∧ ∀ e ∈ l, e.2 = .ok → good e.1 := by
  have := (start_inv E cs).dev d
  rw [ho] at this
  obtain ⟨_, F, ⟨post, pre, h1, h2, h3, h4⟩, h5, h6, h7⟩ := this
  subst h1
  obtain ⟨b1, b2⟩ := told_post (m := m) (k := k) (pre := pre) h3
  exact ⟨F, by rw [b1, b2]; exact h4, h6, h7, h5⟩

theorem lines_positive {l : Hist} (h : ∀ e ∈ l, e.2 = .ok → good e.1) : Mesh.Positive (lines l) := by
  intro c hc
  unfold lines at hc
  rw [List.mem_filterMap] at hc
  obtain ⟨⟨c', a⟩, he, hc⟩ := hc
  have he' := h _ (List.mem_reverse.1 he)
  split at hc
  · rename_i m tag pos ns ps hh
    cases hh
    cases hc
    have hps : 0 < ps := he' rfl
    refine ⟨hps, ?_⟩
    dsimp only
    split
    · exact hps
    · rename_i hns; exact not_le.1 hns
  · cases hc

/-- **C96** A device made from a one-dimensional mesh that was finalized at the first try: it has exactly the regions, contacts and interfaces
the mesh was told. -/
theorem device_one {E : Engine} (hE : Standard E) (cs : List Cmd) {d m : String} {a : Ans} {l : Hist}
    (ho : origin (start E cs).2 d = some (a, m, .one, l)) (h0 : failures l = 0) :
    a = .ok ∧ ∃ D, (start E cs).1.devs.get d = some (.one D) ∧ Mesh.DevOK (lines l) (regions l) (contacts l) (interfaces l) D := by
  obtain ⟨F, h1, h2, h3, h4⟩ := device_content E cs ho
  obtain ⟨fuel, order, ho, hfin⟩ := hE.one
  rw [h0] at h1
  simp only [bodyOf] at h1
  rw [hfin] at h1
  dsimp only at h1
  split at h1
  · rename_i M hM
    cases h1
    obtain ⟨D, hD, hOK⟩ := Mesh.instantiate_spec (Mesh.finalize_spec ho (lines_positive h4) hM)
    rw [hE.inst_one M d D hD] at h2 h3
    exact ⟨h3, D, h2, hOK⟩
  · cases h1
  · cases h1
  · cases h1

/-- **C96** A device made from a two-dimensional mesh that was finalized at the first try: the mesh says what it was told (`Says`, C66), and
the device is the device of that mesh, if its contacts and interfaces name regions it has. -/
theorem device_two {E : Engine} (hE : Standard E) (cs : List Cmd) {d m : String} {a : Ans} {l : Hist}
    (ho : origin (start E cs).2 d = some (a, m, .two, l)) (h0 : failures l = 0) :
    ∃ M xs ys L, Mesh2d.Says (told2 l) M ∧ Mesh2d.GridOK M.xlines xs ∧ Mesh2d.GridOK M.ylines ys ∧ Mesh2d.MeshOK2 M xs ys L ∧
      ((∀ n o, L.contacts.get n = some o → ∃ r, L.regions.get o.region = some r) →
        (∀ n o, L.ifaces.get n = some o → (∃ r, L.regions.get o.region0 = some r) ∧ ∃ r, L.regions.get o.region1 = some r) →
        a = .ok ∧ ∃ env, (start E cs).1.devs.get d = some (.two (Mesh2d.devOf env L))) := by
  obtain ⟨F, h1, h2, h3, h4⟩ := device_content E cs ho
  obtain ⟨fuel, sort, hs, hfin⟩ := hE.two
  rw [h0] at h1
  simp only [bodyOf] at h1
  rw [hfin] at h1
  split at h1
  · rename_i L hL
    cases h1
    obtain ⟨M, xs, ys, S, hx, hy, hM, hne⟩ := Mesh2d.script_mesh hs _ hL
    refine ⟨M, xs, ys, L, S, hx, hy, hM, fun hc hi => ?_⟩
    obtain ⟨env, henv, hinst⟩ := hE.inst_two
    have hd := Mesh2d.device_made hM hx.increasing hy.increasing hne henv (dn := d.toList) (devs := []) List.Pairwise.nil rfl hc hi
    have he := hinst L d (Mesh2d.devOf env L) (by rw [hd]; simp [MeshIO.SMap.put, MeshIO.SMap.get])
    rw [he, hd] at h2 h3
    exact ⟨by simpa using h3, env, h2⟩
  · cases h1
  · cases h1
  · cases h1

end Verif.Msh
