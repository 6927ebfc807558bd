import Verif.Disp.Spec
import Mathlib.Tactic.Common
import Mathlib.Data.List.Nodup
/-!
# The calls agree with their histories
-/
namespace Verif.Disp

variable {σ O : Type}

theorem mask_iff (x : Flag) : mask x = true ↔ Serious x := by
  cases x <;> simp [mask, Serious]

theorem pending_up (f : Flags) (h : List Ev) (x : Flag) :
    Pending (.up f :: h) x ↔ f x = true ∨ Pending h x := by
  constructor
  · rintro ⟨post, pre, g, e, hg, hd⟩
    cases post with
    | nil =>
      simp only [List.nil_append, List.cons.injEq, Ev.up.injEq] at e
      obtain ⟨rfl, rfl⟩ := e
      exact .inl hg
    | cons p post =>
      simp only [List.cons_append, List.cons.injEq] at e
      obtain ⟨rfl, rfl⟩ := e
      exact .inr ⟨post, pre, g, rfl, hg, fun h => hd (List.mem_cons_of_mem _ h)⟩
  · rintro (hf | ⟨post, pre, g, rfl, hg, hd⟩)
    · exact ⟨[], h, f, rfl, hf, by simp⟩
    · exact ⟨.up f :: post, pre, g, rfl, hg, by simpa using hd⟩

theorem pending_down (h : List Ev) (x : Flag) : ¬ Pending (.down :: h) x := by
  rintro ⟨post, pre, g, e, hg, hd⟩
  cases post with
  | nil => simp at e
  | cons p post =>
    simp only [List.cons_append, List.cons.injEq] at e
    obtain ⟨rfl, rfl⟩ := e
    simp at hd

/-- The flags that are stored are those pending. -/
def Abs (h : List Ev) (w : World σ) : Prop := ∀ x, w.flags x = true ↔ Serious x ∧ Pending h x

/-- The handler is the last answer. -/
def Hand (a : List (Answer O)) (h : Handler O) : Prop :=
  match a with
  | [] => h = ⟨0, none, ""⟩
  | .error s :: _ => h = ⟨0, none, s⟩
  | .object o :: _ => h = ⟨1, o, ""⟩

theorem abs_check {h : List Ev} {w : World σ} (ha : Abs h w) : w.check = true ↔ Trouble h := by
  simp only [World.check, List.any_eq_true]
  constructor
  · rintro ⟨x, _, hx⟩; exact ⟨x, (ha x).1 hx⟩
  · rintro ⟨x, hx⟩
    exact ⟨x, by cases x <;> simp [allFlags], (ha x).2 hx⟩

theorem abs_no {h : List Ev} {w : World σ} (ha : Abs h w) : w.check = false ↔ ¬ Trouble h := by
  rw [← abs_check ha]; simp

theorem abs_clear (h : List Ev) (w : World σ) : Abs (.down :: h) w.clear := by
  intro x
  simp [World.flags, World.clear, combine, cleared, pending_down]

theorem abs_arith {h : List Ev} {w : World σ} (f : Flags) (ha : Abs h w) :
    Abs (.up f :: h) { w with hw := combine w.hw f } := by
  intro x
  have hx := ha x
  rw [pending_up]
  simp only [World.flags, combine, Bool.or_eq_true, Bool.and_eq_true] at hx ⊢
  have hm := mask_iff x
  tauto

theorem abs_raise {h : List Ev} {w : World σ} {f : Flags} (hf : ∀ x, f x = true → Serious x) (ha : Abs h w) :
    Abs (.up f :: h) { w with hw := combine w.hw f, raised := combine w.raised f } := by
  intro x
  have hx := ha x
  rw [pending_up]
  simp only [World.flags, combine, Bool.or_eq_true, Bool.and_eq_true] at hx ⊢
  have hm := mask_iff x
  have := hf x
  tauto

theorem said_text (e : Exc) : e.text = e.said := by cases e <;> rfl

theorem called_name : Flag.name = Flag.called := by funext x; cases x <;> rfl

theorem fpe_said (f : Flags) : fpeMessage f =
    "Uncaught FPE: There was an uncaught floating point exception of type \""
      ++ ", ".intercalate ((allFlags.filter f).map Flag.called) ++ "\"\n" := by
  delta fpeMessage fpeString
  rw [called_name]

theorem seen_trouble {F : Finish σ O} {names : List Flag} {m : String} (tr : Trouble F.flags)
    (nm : ∀ x, x ∈ names ↔ Serious x ∧ Pending F.flags x)
    (sl : names.Sublist [.invalid, .divByZero, .inexact, .overflow, .underflow])
    (hm : m = "Uncaught FPE: There was an uncaught floating point exception of type \""
      ++ ", ".intercalate (names.map Flag.called) ++ "\"\n") : Seen F (.error (F.message ++ m)) := by
  rw [hm]
  exact .trouble tr nm sl

theorem seen_close {h : List Ev} {a : List (Answer O)} {w : World σ} {hd : Handler O} {e : Option Exc}
    (ha : Abs h w) (hh : Hand a hd) :
    Seen ⟨h, a, w.state, e⟩ (close (w, hd, e)).2 ∧ (close (w, hd, e)).1.state = w.state ∧
    ∃ h', After h h' ∧ Abs h' (close (w, hd, e)).1 := by
  by_cases hc : Trouble h
  · have ck := (abs_check ha).2 hc
    have nm : ∀ x, x ∈ allFlags.filter w.flags ↔ Serious x ∧ Pending h x := by
      intro x
      rw [List.mem_filter, ha x]
      constructor
      · exact fun h => h.2
      · exact fun h => ⟨by cases x <;> simp [allFlags], h⟩
    have sl : (allFlags.filter w.flags).Sublist allFlags := List.filter_sublist
    have fin : ∀ r : Option O,
        Seen (⟨h, a, w.state, e⟩ : Finish σ O)
          (conclude (r, (⟨h, a, w.state, e⟩ : Finish σ O).message) w).2 ∧
        (conclude (r, (⟨h, a, w.state, e⟩ : Finish σ O).message) w).1.state = w.state ∧
        ∃ h', After h h' ∧ Abs h' (conclude (r, (⟨h, a, w.state, e⟩ : Finish σ O).message) w).1 := by
      intro r
      have e1 : conclude (r, (⟨h, a, w.state, e⟩ : Finish σ O).message) w =
        (w.clear, .error ((⟨h, a, w.state, e⟩ : Finish σ O).message ++ fpeMessage w.flags)) := by
        rw [conclude, if_pos ck]
      rw [e1]
      exact ⟨seen_trouble (F := (⟨h, a, w.state, e⟩ : Finish σ O)) hc nm sl (fpe_said _), rfl, _, .trouble hc, abs_clear _ _⟩
    cases e with
    | some e =>
      simp only [close, said_text]
      exact fin none
    | none =>
      match a, hh with
      | [], hh =>
        obtain rfl := hh
        exact fin none
      | .error s :: r, hh =>
        obtain rfl := hh
        exact fin none
      | .object none :: r, hh =>
        obtain rfl := hh
        exact fin none
      | .object (some o) :: r, hh =>
        obtain rfl := hh
        exact fin (some o)
  · have ck := (abs_no ha).2 hc
    refine ⟨?_, ?_, h, .calm hc, ?_⟩
    · cases e with
      | some e =>
        simp only [close, conclude, ck, said_text]
        exact .thrown rfl hc
      | none =>
        match a, hh with
        | [], hh =>
          obtain rfl := hh
          simp only [close, conclude, ck, collect]
          exact .silent rfl (.inl rfl) hc
        | .error s :: r, hh =>
          obtain rfl := hh
          simp only [close, conclude, ck, collect]
          exact .refused rfl rfl hc
        | .object none :: r, hh =>
          obtain rfl := hh
          simp only [close, conclude, ck, collect]
          exact .silent rfl (.inr ⟨r, rfl⟩) hc
        | .object (some o) :: r, hh =>
          obtain rfl := hh
          simp only [close, conclude, ck, collect]
          exact .value rfl rfl hc
    · cases e <;> simp only [close, conclude, ck] <;> (try split) <;> simp_all <;> (try split) <;> rfl
    · cases e <;> simp only [close, conclude, ck] <;> (try split) <;> simp_all <;> (try split) <;> assumption

/-- A body and what is stored follow a history. -/
theorem run_sound (pyNone : O) : ∀ (p : Prog σ O), ByHand p → ∀ (h : List Ev) (a : List (Answer O)) (w : World σ)
    (hd : Handler O), Abs h w → Hand a hd →
    ∃ h' a', Runs pyNone p h a w.state ⟨h', a', (run pyNone p w hd).1.state, (run pyNone p w hd).2.2⟩ ∧
      Abs h' (run pyNone p w hd).1 ∧ Hand a' (run pyNone p w hd).2.1 := by
  intro p
  induction p with
  | done => intro _ h a w hd ha hh; exact ⟨h, a, .done, ha, hh⟩
  | throw e => intro _ h a w hd ha hh; exact ⟨h, a, .throw, ha, hh⟩
  | err s k ih =>
    intro hb h a w hd ha hh
    obtain ⟨h', a', r, x, y⟩ := ih hb h (.error s :: a) w (hd.err s) ha rfl
    exact ⟨h', a', .err r, x, y⟩
  | obj o k ih =>
    intro hb h a w hd ha hh
    obtain ⟨h', a', r, x, y⟩ := ih hb h (.object o :: a) w (hd.obj o) ha rfl
    exact ⟨h', a', .obj r, x, y⟩
  | empty k ih =>
    intro hb h a w hd ha hh
    obtain ⟨h', a', r, x, y⟩ := ih hb h (.object (some pyNone) :: a) w (hd.obj (some pyNone)) ha rfl
    exact ⟨h', a', .empty r, x, y⟩
  | arith f k ih =>
    intro hb h a w hd ha hh
    obtain ⟨h', a', r, x, y⟩ := ih hb (.up f :: h) a { w with hw := combine w.hw f } hd (abs_arith f ha) hh
    exact ⟨h', a', .arith r, x, y⟩
  | raise f k ih =>
    intro hb h a w hd ha hh
    obtain ⟨h', a', r, x, y⟩ := ih hb.2 (.up f :: h) a
      { w with hw := combine w.hw f, raised := combine w.raised f } hd (abs_raise hb.1 ha) hh
    exact ⟨h', a', .raise r, x, y⟩
  | clear k ih =>
    intro hb h a w hd ha hh
    obtain ⟨h', a', r, x, y⟩ := ih hb (.down :: h) a w.clear hd (abs_clear h w) hh
    exact ⟨h', a', .clear r, x, y⟩
  | test k ih =>
    intro hb h a w hd ha hh
    obtain ⟨h', a', r, x, y⟩ := ih w.check (hb _) h a w hd ha hh
    refine ⟨h', a', ?_, x, y⟩
    cases hc : w.check with
    | true =>
      simp only [run] at r ⊢
      rw [hc] at r ⊢
      exact .yes ((abs_check ha).1 hc) r
    | false =>
      simp only [run] at r ⊢
      rw [hc] at r ⊢
      exact .no ((abs_no ha).1 hc) r
  | read k ih =>
    intro hb h a w hd ha hh
    obtain ⟨h', a', r, x, y⟩ := ih w.state (hb _) h a w hd ha hh
    exact ⟨h', a', .read r, x, y⟩
  | write g k ih =>
    intro hb h a w hd ha hh
    obtain ⟨h', a', r, x, y⟩ := ih hb h a { w with state := g w.state } hd ha hh
    exact ⟨h', a', .write r, x, y⟩
  | call n pos b k ihb ihk =>
    intro hb h a w hd ha hh
    cases pos with
    | true =>
      obtain ⟨h', a', r, x, y⟩ := ihk (.error (refusal n)) (hb.2 _) (.down :: h) a w.clear hd (abs_clear h w) hh
      exact ⟨h', a', .call .positional r, x, y⟩
    | false =>
      obtain ⟨h1, a1, r1, x1, y1⟩ := ihb hb.1 (.down :: h) [] w.clear Handler.start (abs_clear h w) rfl
      obtain ⟨s1, s2, h2, af, s3⟩ := seen_close (e := (run pyNone b w.clear Handler.start).2.2) x1 y1
      obtain ⟨h', a', r, x, y⟩ := ihk (close (run pyNone b w.clear Handler.start)).2 (hb.2 _) h2 a
        (close (run pyNone b w.clear Handler.start)).1 hd s3 hh
      refine ⟨h', a', ?_, x, y⟩
      refine .call (.command (F := ⟨h1, a1, (run pyNone b w.clear Handler.start).1.state, _⟩) r1 af s1) ?_
      have e : (close (run pyNone b w.clear Handler.start)).1.state =
        (run pyNone b w.clear Handler.start).1.state := s2
      dsimp only
      rw [← e]
      exact r

/-- A call is what its history says. -/
theorem dispatch_sound (pyNone : O) (n : String) (pos : Bool) (p : Prog σ O) (hb : ByHand p) (h : List Ev)
    (w : World σ) : ∃ h', Calls pyNone n pos p h w.state h' (dispatch pyNone n pos p w).1.state
      (dispatch pyNone n pos p w).2 ∧ Abs h' (dispatch pyNone n pos p w).1 := by
  cases pos with
  | true => exact ⟨.down :: h, .positional, abs_clear h w⟩
  | false =>
    obtain ⟨h1, a1, r1, x1, y1⟩ := run_sound pyNone p hb (.down :: h) [] w.clear Handler.start (abs_clear h w) rfl
    obtain ⟨s1, s2, h2, af, s3⟩ := seen_close (e := (run pyNone p w.clear Handler.start).2.2) x1 y1
    refine ⟨h2, ?_, s3⟩
    have e : (dispatch pyNone n false p w).1.state = (run pyNone p w.clear Handler.start).1.state := s2
    rw [e]
    exact .command (F := ⟨h1, a1, (run pyNone p w.clear Handler.start).1.state, _⟩) r1 af s1

/-- Sublists of the names, with the same members, are the same. -/
theorem sublist_unique {l m a : List Flag} (ha : a.Nodup) (hl : l.Sublist a) (hm : m.Sublist a)
    (h : ∀ x, x ∈ l ↔ x ∈ m) : l = m := by
  induction a generalizing l m with
  | nil =>
    rw [List.sublist_nil] at hl hm
    rw [hl, hm]
  | cons x a ih =>
    have nx := (List.nodup_cons.1 ha).1
    have na := (List.nodup_cons.1 ha).2
    rcases List.sublist_cons_iff.1 hl with hl2 | ⟨l', rfl, hl2⟩ <;>
    rcases List.sublist_cons_iff.1 hm with hm2 | ⟨m', rfl, hm2⟩
    · exact ih na hl2 hm2 h
    · exact absurd (hl2.subset ((h x).2 (by simp))) nx
    · exact absurd (hm2.subset ((h x).1 (by simp))) nx
    · congr 1
      refine ih na hl2 hm2 fun y => ?_
      have hy := h y
      by_cases e : y = x
      · rw [e]
        exact ⟨fun q => absurd (hl2.subset q) nx, fun q => absurd (hm2.subset q) nx⟩
      · simpa [e] using hy

/-- A finished command is seen in one way only. -/
theorem seen_unique {F : Finish σ O} {o o' : Outcome O} (h : Seen F o) (h' : Seen F o') : o = o' := by
  have key : ∀ (n n' : List Flag), (∀ x, x ∈ n ↔ Serious x ∧ Pending F.flags x) →
      n.Sublist [.invalid, .divByZero, .inexact, .overflow, .underflow] →
      (∀ x, x ∈ n' ↔ Serious x ∧ Pending F.flags x) →
      n'.Sublist [.invalid, .divByZero, .inexact, .overflow, .underflow] → n = n' :=
    fun n n' a b c d => sublist_unique (by decide) b d fun x => (a x).trans (c x).symm
  cases h with
  | value e1 e2 e3 =>
    cases h' with
    | value d1 d2 d3 => rw [e2] at d2; simp_all
    | refused d1 d2 d3 => rw [e2] at d2; simp_all
    | silent d1 d2 d3 => rw [e2] at d2; simp_all
    | thrown d1 d2 => rw [e1] at d1; simp_all
    | trouble d1 => exact absurd d1 e3
  | refused e1 e2 e3 =>
    cases h' with
    | value d1 d2 d3 => rw [e2] at d2; simp_all
    | refused d1 d2 d3 => rw [e2] at d2; simp_all
    | silent d1 d2 d3 => rw [e2] at d2; simp_all
    | thrown d1 d2 => rw [e1] at d1; simp_all
    | trouble d1 => exact absurd d1 e3
  | silent e1 e2 e3 =>
    cases h' with
    | value d1 d2 d3 => rw [d2] at e2; simp_all
    | refused d1 d2 d3 => rw [d2] at e2; simp_all
    | silent d1 d2 d3 => rfl
    | thrown d1 d2 => rw [e1] at d1; simp_all
    | trouble d1 => exact absurd d1 e3
  | thrown e1 e3 =>
    cases h' with
    | value d1 d2 d3 => rw [e1] at d1; simp_all
    | refused d1 d2 d3 => rw [e1] at d1; simp_all
    | silent d1 d2 d3 => rw [e1] at d1; simp_all
    | thrown d1 d2 => rw [e1] at d1; simp_all
    | trouble d1 => exact absurd d1 e3
  | trouble e1 e2 e3 =>
    cases h' with
    | value d1 d2 d3 => exact absurd e1 d3
    | refused d1 d2 d3 => exact absurd e1 d3
    | silent d1 d2 d3 => exact absurd e1 d3
    | thrown d1 d2 => exact absurd e1 d2
    | trouble d1 d2 d3 => rw [key _ _ e2 e3 d2 d3]

theorem after_unique {h a b : List Ev} (x : After h a) (y : After h b) : a = b := by
  cases x <;> cases y <;> first | rfl | contradiction

theorem calls_of_runs {pyNone : O} {n : String} {pos : Bool} {p : Prog σ O}
    (ih : ∀ {h a s} {F G : Finish σ O}, Runs pyNone p h a s F → Runs pyNone p h a s G → F = G)
    {h s h1 s1 o1 h2 s2 o2} (x : Calls pyNone n pos p h s h1 s1 o1) (y : Calls pyNone n pos p h s h2 s2 o2) :
    h1 = h2 ∧ s1 = s2 ∧ o1 = o2 := by
  cases x with
  | positional => cases y; exact ⟨rfl, rfl, rfl⟩
  | command r af se =>
    cases y with
    | command r' af' se' =>
      obtain rfl := ih r r'
      exact ⟨after_unique af af', rfl, seen_unique se se'⟩

theorem runs_unique (pyNone : O) (p : Prog σ O) : ∀ {h a s} {F G : Finish σ O},
    Runs pyNone p h a s F → Runs pyNone p h a s G → F = G := by
  induction p with
  | done => intro h a s F G x y; cases x; cases y; rfl
  | throw => intro h a s F G x y; cases x; cases y; rfl
  | err _ _ ih => intro h a s F G x y; cases x with | err x => cases y with | err y => exact ih x y
  | obj _ _ ih => intro h a s F G x y; cases x with | obj x => cases y with | obj y => exact ih x y
  | empty _ ih => intro h a s F G x y; cases x with | empty x => cases y with | empty y => exact ih x y
  | arith _ _ ih => intro h a s F G x y; cases x with | arith x => cases y with | arith y => exact ih x y
  | raise _ _ ih => intro h a s F G x y; cases x with | raise x => cases y with | raise y => exact ih x y
  | clear _ ih => intro h a s F G x y; cases x with | clear x => cases y with | clear y => exact ih x y
  | read _ ih => intro h a s F G x y; cases x with | read x => cases y with | read y => exact ih _ x y
  | write _ _ ih => intro h a s F G x y; cases x with | write x => cases y with | write y => exact ih x y
  | test _ ih =>
    intro h a s F G x y
    cases x with
    | yes t x => cases y with
      | yes _ y => exact ih _ x y
      | no u y => exact absurd t u
    | no t x => cases y with
      | yes u y => exact absurd u t
      | no _ y => exact ih _ x y
  | call n b p k ihb ihk =>
    intro h a s F G x y
    cases x with
    | call c x => cases y with
      | call d y =>
        obtain ⟨rfl, rfl, rfl⟩ := calls_of_runs ihb c d
        exact ihk _ x y

theorem calls_unique {pyNone : O} {n : String} {pos : Bool} {p : Prog σ O} {h s h1 s1 o1 h2 s2 o2}
    (x : Calls pyNone n pos p h s h1 s1 o1) (y : Calls pyNone n pos p h s h2 s2 o2) :
    h1 = h2 ∧ s1 = s2 ∧ o1 = o2 := calls_of_runs (runs_unique pyNone p) x y

end Verif.Disp
