import Verif.Ckt.Lemmas

/-!
# C94: the elements of a circuit are as they were told
-/
namespace Verif.Ckt
open Verif
open Verif.Circuit (ElemKind Inv branchNode pointerRow)
open Verif.Ckt.Spec

set_option linter.unusedSectionVars false
variable {K F : Type} [DecidableEq K] [Field F] [DecidableEq F]

theorem kindOf_iff (name : String) (k : ElemKind) : kindOf name = some k ↔ Spec.Names k name := by
  unfold kindOf Spec.Names
  cases h : name.toList with
  | nil => simp
  | cons c s =>
    dsimp only
    have : (∃ c' s', c :: s = c' :: s' ∧ Letter k c') ↔ Letter k c := by
      constructor
      · rintro ⟨c', s', h1, h2⟩; cases h1; exact h2
      · intro h; exact ⟨c, s, rfl, h⟩
    rw [this]
    constructor
    · intro hk
      split at hk
      · rename_i hc; cases hk; rcases hc with rfl | rfl <;> constructor
      split at hk
      · rename_i hc; cases hk; rcases hc with rfl | rfl <;> constructor
      split at hk
      · rename_i hc; cases hk; rcases hc with rfl | rfl <;> constructor
      split at hk
      · rename_i hc; cases hk; rcases hc with rfl | rfl <;> constructor
      split at hk
      · rename_i hc; cases hk; rcases hc with rfl | rfl <;> constructor
      · cases hk
    · intro hl
      cases hl <;> decide

/-- the circuit shows the account -/
structure Shows (w : World K F) (A : Account F) : Prop where
  inv : Inv names w.st
  lock : w.st.locked = true → w.st.sols ≠ []
  wf : w.st.elems.WF
  elem : ∀ n, w.st.elems.get n = (A n).map fun t => ⟨t.kind, t.n1, t.n2, (branchNode names t.kind n).map Prod.fst⟩
  obj : ∀ n, w.objs.get n = (A n).map fun t => make t.kind t.value t.acreal t.acimag
  kind : ∀ n t, A n = some t → kindOf n = some t.kind
  ac : ∀ n t, A n = some t → t.kind = .V ∨ (t.acreal = 0 ∧ t.acimag = 0)

theorem shows_init : Shows (World.init : World K F) fun _ => none :=
  ⟨Inv.init names, (fun h => nomatch h), FMap.WF.nil, fun _ => rfl, fun _ => rfl, (fun _ _ h => nomatch h), (fun _ _ h => nomatch h)⟩

theorem locked_iff {w : World K F} {A} (h : Shows w A) : w.st.locked = true ↔ w.st.sols ≠ [] := by
  refine ⟨h.lock, fun hs => ?_⟩
  cases hl : w.st.locked with
  | true => rfl
  | false => exact absurd (h.inv.nosol hl) hs

/-- the state of the nodes changes, the elements do not -/
theorem Shows.keep {w : World K F} {A} (h : Shows w A) {st : Circuit.St String K F} (hi : Inv names st) (hk : Keep w.st.elems st) : Shows ⟨st, w.objs⟩ A :=
  ⟨hi, hk.2, by rw [hk.1]; exact h.wf, by rw [hk.1]; exact h.elem, h.obj, h.kind, h.ac⟩

theorem Shows.self {w : World K F} {A} (h : Shows w A) : Keep w.st.elems w.st := ⟨rfl, h.lock⟩

theorem element_inv {w : World K F} {A} (h : Shows w A) (name n1 n2) : Inv names (Circuit.elementCmd names w.st name n1 n2).1 :=
  (Circuit.elementCmd_ok ⟨h.inv, Circuit.Ext.refl _⟩ name n1 n2).1.1

theorem has_iff {w : World K F} {A} (h : Shows w A) (name) : w.st.elems.has name = true ↔ A name ≠ none := by
  unfold FMap.has
  rw [h.elem]
  cases A name <;> simp

/-- `circuit_element` -/
theorem element_after {w : World K F} {A} (h : Shows w A) (name n1 n2) (v r i : F) :
    ∃ A', Does (K := K) (w.st.sols ≠ []) A (.element name n1 n2 v r i) A' (elementCmd w name n1 n2 v r i).2 ∧
      Shows (elementCmd w name n1 n2 v r i).1 A' := by
  unfold elementCmd
  by_cases hc : kindOf name ≠ some .V ∧ (r ≠ 0 ∨ i ≠ 0)
  · rw [if_pos hc]
    refine ⟨A, .noElement _ _ _ _ _ _ _ (.inr (.inr (.inr ⟨?_, ?_⟩))) (by simp [IsError]), h⟩
    · rw [← kindOf_iff]; exact hc.1
    · rintro ⟨rfl, rfl⟩; rcases hc.2 with h | h <;> exact h rfl
  rw [if_neg hc]
  dsimp only
  by_cases hw : w.st.locked = true ∨ kindOf name = none ∨ w.st.elems.has name = true
  · obtain ⟨h1, h2⟩ := element_not h.self name n1 n2 hw
    have hA : w.st.sols ≠ [] ∨ (∀ k, ¬ Spec.Names k name) ∨ A name ≠ none ∨ (¬ Spec.Names .V name ∧ ¬ (r = 0 ∧ i = 0)) := by
      rcases hw with hw | hw | hw
      · exact .inl ((locked_iff h).mp hw)
      · refine .inr (.inl fun k hk => ?_)
        rw [← kindOf_iff, hw] at hk
        cases hk
      · exact .inr (.inr (.inl ((has_iff h name).mp hw)))
    have hs := h.keep (element_inv h name n1 n2) h2
    cases hk : kindOf name with
    | none =>
      dsimp only
      refine ⟨A, .noElement _ _ _ _ _ _ _ hA ?_, hs⟩
      split <;> simp [IsError]
    | some k =>
      dsimp only
      rw [if_pos h1]
      exact ⟨A, .noElement _ _ _ _ _ _ _ hA (by simp [IsError]), hs⟩
  · rw [not_or, not_or] at hw
    obtain ⟨hw1, hw2, hw3⟩ := hw
    cases hk : kindOf name with
    | none => exact absurd hk hw2
    | some k =>
      have hn : A name = none := by
        by_contra hn
        exact hw3 ((has_iff h name).mpr hn)
      have hge : w.st.elems.get name = none := by rw [h.elem, hn]; rfl
      obtain ⟨e1, e2, e3⟩ := element_new (by simpa using hw1) hk hge n1 n2
      dsimp only
      rw [if_neg (by rw [e1]; simp)]
      have hac : k = .V ∨ (r = 0 ∧ i = 0) := by
        by_cases hv : k = .V
        · exact .inl hv
        · right
          by_contra hh
          apply hc
          rw [hk]
          refine ⟨fun h => hv (Option.some.inj h), ?_⟩
          by_contra h2
          rw [not_or, not_not, not_not] at h2
          exact hh h2
      refine ⟨_, .element name n1 n2 v r i k ?_ ((kindOf_iff _ _).mp hk) hn hac, ?_⟩
      · rw [← locked_iff h]; exact hw1
      · refine ⟨element_inv h name n1 n2, fun hl => ?_, ?_, ?_, ?_, ?_, ?_⟩
        · dsimp only at hl; rw [e3] at hl; cases hl
        · dsimp only; rw [e2]; exact h.wf.set _ _
        · intro n
          dsimp only
          rw [e2, FMap.get_set]
          unfold tell
          split
          · rename_i hh; subst hh; rfl
          · exact h.elem n
        · intro n
          dsimp only
          rw [FMap.get_set]
          unfold tell
          split
          · rfl
          · exact h.obj n
        · intro n t ht
          unfold tell at ht
          split at ht
          · rename_i hh; subst hh; cases ht; exact hk
          · exact h.kind n t ht
        · intro n t ht
          unfold tell at ht
          split at ht
          · cases ht; exact hac
          · exact h.ac n t ht

/-- the parameters of an element, by the text of the parameter -/
theorem addParam_make (name p : String) (t : Told F) (x : F) (hk : kindOf name = some t.kind) :
    (∃ m, Means t.kind p m ∧ addParam (make t.kind t.value t.acreal t.acimag) (paramName name p) x =
        some (make t.kind (t.with x m).value (t.with x m).acreal (t.with x m).acimag)) ∨
    ((∀ m, ¬ Means t.kind p m) ∧ addParam (make t.kind t.value t.acreal t.acimag) (paramName name p) x = none) := by
  unfold paramName
  rw [hk]
  dsimp only
  by_cases h0 : p = "" ∨ p = "value"
  · left
    have e : (if (if p = "" then "value" else p) = "value" then letter t.kind else if p = "" then "value" else p) = letter t.kind := by
      rcases h0 with rfl | rfl <;> simp
    rw [e]
    refine ⟨.value, ?_, ?_⟩
    · rcases h0 with rfl | rfl
      · exact .nothing _
      · exact .value _
    · obtain ⟨kd, _, _, _, _, _⟩ := t
      cases kd <;> simp [letter, make, addParam, Told.with]
  · rw [not_or] at h0
    rw [if_neg h0.1, if_neg h0.2]
    obtain ⟨kd, n1, n2, a, b, c⟩ := t
    have nm : ∀ m, Means kd p m → (p = letter kd ∨ (kd = .V ∧ (p = "acreal" ∨ p = "acimag"))) := by
      intro m hm
      cases hm with
      | value => exact absurd rfl h0.2
      | nothing => exact absurd rfl h0.1
      | V => exact .inl rfl
      | I => exact .inl rfl
      | C => exact .inl rfl
      | L => exact .inl rfl
      | R => exact .inl rfl
      | acreal => exact .inr ⟨rfl, .inl rfl⟩
      | acimag => exact .inr ⟨rfl, .inr rfl⟩
    by_cases h1 : p = letter kd
    · left
      subst h1
      refine ⟨.value, ?_, ?_⟩
      · cases kd <;> constructor
      · cases kd <;> simp [letter, make, addParam, Told.with]
    by_cases h2 : kd = .V ∧ (p = "acreal" ∨ p = "acimag")
    · left
      obtain ⟨rfl, rfl | rfl⟩ := h2
      · exact ⟨.acreal, .acreal, by simp [make, addParam, Told.with]⟩
      · exact ⟨.acimag, .acimag, by simp [make, addParam, Told.with]⟩
    right
    refine ⟨fun m hm => by rcases nm m hm with h | h; exacts [h1 h, h2 h], ?_⟩
    have h2' : kd = .V → p ≠ "acreal" ∧ p ≠ "acimag" := fun h => ⟨fun h' => h2 ⟨h, .inl h'⟩, fun h' => h2 ⟨h, .inr h'⟩⟩
    cases kd <;> simp [letter] at h1 <;> simp [make, addParam, h1]
    · rw [if_neg (h2' rfl).1, if_neg (h2' rfl).2]

theorem with_same (t : Told F) (x : F) (m : Param) : (t.with x m).kind = t.kind ∧ (t.with x m).n1 = t.n1 ∧ (t.with x m).n2 = t.n2 := by
  cases m <;> exact ⟨rfl, rfl, rfl⟩

theorem means_ac {k p m} (h : Means k p m) : k = .V ∨ m = .value := by
  cases h <;> simp

/-- `circuit_alter` -/
theorem alter_after {w : World K F} {A} (h : Shows w A) (name p) (x : F) :
    ∃ A', Does (K := K) (w.st.sols ≠ []) A (.alter name p x) A' (alterCmd w name p x).2 ∧ Shows (alterCmd w name p x).1 A' := by
  unfold alterCmd
  have ho := h.obj name
  cases hA : A name with
  | none =>
    rw [hA] at ho
    rw [ho]
    exact ⟨A, .notThere _ _ _ _ hA (by simp [IsError]), h⟩
  | some t =>
    rw [hA] at ho
    rw [ho]
    dsimp only [Option.map_some]
    rcases addParam_make name p t x (h.kind _ _ hA) with ⟨m, hm, he⟩ | ⟨hm, he⟩
    · rw [he]
      dsimp only
      obtain ⟨k1, k2, k3⟩ := with_same t x m
      refine ⟨_, .alter name p x t m hA hm, h.inv, h.lock, h.wf, ?_, ?_, ?_, ?_⟩
      · intro n
        unfold tell
        split
        · rename_i hh; subst hh; rw [h.elem, hA]; simp [k1, k2, k3]
        · exact h.elem n
      · intro n
        dsimp only
        rw [FMap.get_set]
        unfold tell
        split
        · simp [k1]
        · exact h.obj n
      · intro n u hu
        unfold tell at hu
        split at hu
        · rename_i hh; subst hh; cases hu; rw [k1]; exact h.kind _ _ hA
        · exact h.kind n u hu
      · intro n u hu
        unfold tell at hu
        split at hu
        · rename_i hh; subst hh; cases hu
          rw [k1]
          rcases means_ac hm with hv | rfl
          · exact .inl hv
          · exact h.ac _ _ hA
        · exact h.ac n u hu
    · rw [he]
      exact ⟨A, .notItsOwn _ _ _ t _ hA hm (by simp [IsError]), h⟩

theorem other_after {w : World K F} {A} (h : Shows w A) (c : Circuit.Cmd String K F) (hd : c ≠ .deleteCircuit)
    (hk : Keep w.st.elems (Circuit.step names w.st c).1) : Shows (other w c).1 A :=
  h.keep (Circuit.step_ok ⟨h.inv, Circuit.Ext.refl _⟩ c hd).1 hk

/-- **C94** every command does to what is told about the elements what it should, and the circuit shows it. -/
theorem after {w : World K F} {A} (h : Shows w A) (c : Cmd K F) :
    ∃ A', Does (w.st.sols ≠ []) A c A' (step w c).2 ∧ Shows (step w c).1 A' := by
  cases c with
  | element name n1 n2 v r i => exact element_after h name n1 n2 v r i
  | alter name p x => exact alter_after h name p x
  | addNode n ut => exact ⟨A, .addNode _ _ _, other_after h (.addNode n ut) (by simp) (keep_addCircuitNodeCmd h.self n ut)⟩
  | nodeAlias n al => exact ⟨A, .nodeAlias _ _ _, other_after h _ (by simp) (keep_alias h.self _ _)⟩
  | setVal k n x => exact ⟨A, .setVal _ _ _ _, other_after h _ (by simp) (keep_setVal h.self _ _ _)⟩
  | query => exact ⟨A, .query _, other_after h _ (by simp) (keep_addGround h.self)⟩
  | solve s ks => exact ⟨A, .solve _ _ _, other_after h _ (by simp) (keep_solve h.self _ _)⟩
  | deleteCircuit => exact ⟨_, .delete, shows_init⟩

/-- a history, as it is told: the account before, the commands, the account after -/
inductive Story : World K F → Account F → List (Cmd K F) → Account F → Prop
  | nil (w A) : Story w A [] A
  | cons (w A c A' cs A'') (h : Does (w.st.sols ≠ []) A c A' (step w c).2) (ht : Story (step w c).1 A' cs A'') : Story w A (c :: cs) A''

theorem story_from (cs : List (Cmd K F)) : ∀ {w : World K F} {A}, Shows w A → ∃ A', Story w A cs A' ∧ Shows (run w cs) A' := by
  induction cs with
  | nil => intro w A h; exact ⟨A, .nil _ _, h⟩
  | cons c cs ih =>
    intro w A h
    obtain ⟨A1, h1, h2⟩ := after h c
    obtain ⟨A2, h3, h4⟩ := ih h2
    exact ⟨A2, .cons _ _ _ _ _ _ h1 h3, h4⟩

/-- **C94** every history is one in which each command does what it should. -/
theorem story (cs : List (Cmd K F)) : ∃ A, Story (World.init : World K F) (fun _ => none) cs A ∧ Shows (run World.init cs) A :=
  story_from cs shows_init

/-- a command does one thing: the account after it is determined, and so is whether it is an error, for the commands on elements -/
theorem does_one {solved : Prop} {A A1 A2 : Account F} {c : Cmd K F} {r1 r2 : Res} (h1 : Does solved A c A1 r1) (h2 : Does solved A c A2 r2) :
    A1 = A2 := by
  have uniq : ∀ {k k' : ElemKind} {name}, Spec.Names k name → Spec.Names k' name → k = k' := by
    intro k k' name h h'
    rw [← kindOf_iff] at h h'
    rw [h] at h'
    exact Option.some.inj h'
  have munq : ∀ {k p m m'}, Means k p m → Means k p m' → m = m' := by
    intro k p m m' h h'
    generalize hp : p = q at h'
    cases h <;> cases h' <;> first | rfl | simp at hp
  have bad : ∀ {k name} {r i : F}, ¬ solved → Spec.Names k name → A name = none → (k = .V ∨ (r = 0 ∧ i = 0)) →
      ¬ (solved ∨ (∀ k, ¬ Spec.Names k name) ∨ A name ≠ none ∨ (¬ Spec.Names .V name ∧ ¬ (r = 0 ∧ i = 0))) := by
    rintro k name r i hs hk hn hac (h | h | h | ⟨h, h'⟩)
    · exact hs h
    · exact h _ hk
    · exact h hn
    · rcases hac with rfl | hac
      · exact h hk
      · exact h' hac
  cases h1 with
  | element name n1 n2 v r i k hs hk hn hac =>
    cases h2 with
    | element _ _ _ _ _ _ k' _ hk' => rw [uniq hk hk']
    | noElement _ _ _ _ _ _ _ h => exact absurd h (bad hs hk hn hac)
  | noElement name n1 n2 v r i e h =>
    cases h2 with
    | element _ _ _ _ _ _ k hs hk hn hac => exact absurd h (bad hs hk hn hac)
    | noElement => rfl
  | alter name p x t m h hm =>
    cases h2 with
    | alter _ _ _ t' m' h' hm' =>
      rw [h] at h'; cases h'
      rw [munq hm hm']
    | notThere _ _ _ _ h' => rw [h] at h'; cases h'
    | notItsOwn _ _ _ t' _ h' hm' => rw [h] at h'; cases h'; exact absurd hm (hm' _)
  | notThere name p x e h =>
    cases h2 with
    | alter _ _ _ t' m' h' hm' => rw [h] at h'; cases h'
    | notThere => rfl
    | notItsOwn => rfl
  | notItsOwn name p x t e h hm =>
    cases h2 with
    | alter _ _ _ t' m' h' hm' => rw [h] at h'; cases h'; exact absurd hm' (hm _)
    | notThere => rfl
    | notItsOwn => rfl
  | addNode => cases h2; rfl
  | nodeAlias => cases h2; rfl
  | setVal => cases h2; rfl
  | query => cases h2; rfl
  | solve => cases h2; rfl
  | delete => cases h2; rfl

/-! ### what is assembled -/

theorem live_told (st : Circuit.St String K F) (n : String) (t : Told F) :
    live st ⟨t.kind, t.n1, t.n2, (branchNode names t.kind n).map Prod.fst⟩ (make t.kind t.value t.acreal t.acimag) =
      t.element (pointerRow st) n := by
  obtain ⟨k, n1, n2, a, b, c⟩ := t
  cases k <;> simp [live, make, addParam, Told.element, branchNode, names]

/-- the names of the elements there are, each once, in some order -/
def Lists (A : Account F) (l : List String) : Prop := l.Nodup ∧ ∀ n, n ∈ l ↔ A n ≠ none

theorem lists_keys {w : World K F} {A} (h : Shows w A) : Lists A w.st.elems.keys := by
  refine ⟨h.wf, fun n => ?_⟩
  rw [FMap.mem_keys, h.elem]
  cases A n <;> simp

theorem get_of_mem {B : Type} : ∀ {m : FMap String B} (_ : m.WF) {p : String × B} (_ : p ∈ m), m.get p.1 = some p.2
  | [], _, _, h => by cases h
  | (k, v) :: m, hw, p, h => by
    unfold FMap.WF FMap.keys at hw
    rw [List.map_cons, List.nodup_cons] at hw
    unfold FMap.get
    rcases List.mem_cons.mp h with rfl | hm
    · rw [if_pos rfl]
    · rw [if_neg, get_of_mem hw.2 hm]
      intro hk
      exact hw.1 (List.mem_map.mpr ⟨p, hm, hk.symm⟩)

theorem filterMap_keys {B C : Type} (l : List (String × B)) (f : String × B → Option C) (g : String → Option C) (h : ∀ p ∈ l, f p = g p.1) :
    l.filterMap f = (l.map Prod.fst).filterMap g := by
  induction l with
  | nil => rfl
  | cons p l ih =>
    rw [List.map_cons, List.filterMap_cons, List.filterMap_cons, h p (by simp), ih fun q hq => h q (by simp [hq])]

/-- **C94** the equations that are assembled are those of the elements there are, with the numbers told last. -/
theorem assembled {w : World K F} {A} (h : Shows w A) : ∃ l, Lists A l ∧
    elements w = l.filterMap (fun n => (A n).map (Told.element (pointerRow w.st) n)) ∧
    acRhs w = l.flatMap (fun n => match A n with
      | some t => if t.kind = .V then [((pointerRow w.st (n ++ ".I")).getD 0, t.acreal, t.acimag)] else []
      | none => []) := by
  refine ⟨_, lists_keys h, ?_, ?_⟩
  · unfold elements FMap.keys
    apply filterMap_keys
    intro p hp
    have := get_of_mem h.wf hp
    rw [h.elem] at this
    rw [h.obj]
    cases hA : A p.1 with
    | none => rfl
    | some t =>
      rw [hA] at this
      simp only [Option.map_some, Option.some.injEq] at this ⊢
      rw [← this, live_told]
  · unfold acRhs FMap.keys
    rw [List.flatMap_map]
    apply List.flatMap_congr
    intro p hp
    have := get_of_mem h.wf hp
    rw [h.elem] at this
    rw [h.obj]
    cases hA : A p.1 with
    | none => rfl
    | some t =>
      rw [hA] at this
      simp only [Option.map_some, Option.some.injEq] at this ⊢
      rw [← this]
      obtain ⟨k, n1, n2, a, b, c⟩ := t
      cases k <;> simp [acEntry, make, addParam, branchNode, names]

end Verif.Ckt
