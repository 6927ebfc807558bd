import Mathlib.Algebra.Order.Round
import Mathlib.Data.Rat.Floor
import Mathlib.Tactic.NormNum
import Verif.MeshIO.Exact
import Verif.MeshIO.Example

/-!
# Loading after a load that did not finish

The reader keeps its state in static variables: the mesh in progress (`DevsimReader.cc:14`) and the stack
of start states of the scanner. Neither is reset when a load ends.
-/

namespace Verif.MeshIO

variable {α : Type}

/-! ### Start states -/

/-- What a token does to the start states. -/
def Tok.act : Tok → SAct
  | .kw k => k.act
  | .command => .push .cmd
  | .eol => .pop
  | _ => .stay

/-- Tokens with the start states after them. -/
def annotate : Stk → List Tok → List (Tok × Stk)
  | _, [] => []
  | s, t :: ts => (t, t.act.run s) :: annotate (t.act.run s) ts

theorem rule_act {sec : Sec} {b : Bool} {x : Text} {t : Tok} {a : SAct} (h : rule sec b x = some (.tok t a)) :
    a = t.act ∧ ∀ k, t = .kw k → sec ∈ k.secs := by
  cases x with
  | nil => simp [rule] at h
  | cons c cs =>
    simp only [rule] at h
    repeat' split at h
    all_goals first
      | (simp at h; done)
      | (simp only [Option.some.injEq, Act.tok.injEq] at h
         obtain ⟨rfl, rfl⟩ := h
         refine ⟨rfl, ?_⟩
         intro k hk
         first
           | (simp at hk; done)
           | (rename_i hf
              cases hk
              split at hf
              · have := List.find?_some hf
                simp only [Bool.and_eq_true, decide_eq_true_eq] at this
                exact this.2
              · simp at hf))

theorem lexF_annotate : ∀ (n : Nat) (s : Stk) (b : Bool) (x : Text),
    (lexF n s b x).1 = annotate s ((lexF n s b x).1.map Prod.fst) := by
  intro n
  induction n with
  | zero => intros; rfl
  | succ n ih =>
    intro s b x
    cases x with
    | nil => rfl
    | cons c cs =>
      rw [lexF]
      split
      · rfl
      · exact ih _ _ _
      · exact ih _ _ _
      · rename_i k t a h
        have hr : ∃ y, rule s.cur b y = some (.tok t a) := by
          have : ∀ N, longest s.cur b (c :: cs) N = some (k, .tok t a) → ∃ y, rule s.cur b y = some (.tok t a) := by
            intro N
            induction N with
            | zero => intro h; simp [longest] at h
            | succ N ih' =>
              intro h
              rw [longest] at h
              split at h
              · rename_i a' h'
                simp only [Option.some.injEq, Prod.mk.injEq] at h
                exact ⟨_, h.2 ▸ h'⟩
              · exact ih' h
          exact this _ h
        obtain ⟨y, hy⟩ := hr
        have ha := (rule_act hy).1
        subst ha
        simp only [List.map_cons, annotate]
        rw [← ih]

theorem lex_annotate (s : Stk) (b : Bool) (x : Text) :
    (lex s b x).1 = annotate s ((lex s b x).1.map Prod.fst) := lexF_annotate _ _ _ _

/-- The first token is a keyword of the present start state. -/
theorem lexF_first : ∀ (n : Nat) (s : Stk) (b : Bool) (x : Text) (k : Kw) (st : Stk) (l : List (Tok × Stk)),
    (lexF n s b x).1 = (.kw k, st) :: l → s.cur ∈ k.secs := by
  intro n
  induction n with
  | zero => intro s b x k st l h; simp [lexF] at h
  | succ n ih =>
    intro s b x k st l
    cases x with
    | nil => intro h; simp [lexF] at h
    | cons c cs =>
      rw [lexF]
      split
      · intro h; simp at h
      · exact ih _ _ _ _ _ _
      · exact ih _ _ _ _ _ _
      · rename_i k' t a h
        intro h'
        simp only [List.cons.injEq, Prod.mk.injEq] at h'
        obtain ⟨⟨rfl, _⟩, _⟩ := h'
        have hr : ∃ y, rule s.cur b y = some (.tok (.kw k) a) := by
          have : ∀ N, longest s.cur b (c :: cs) N = some (k', .tok (.kw k) a) →
              ∃ y, rule s.cur b y = some (.tok (.kw k) a) := by
            intro N
            induction N with
            | zero => intro h; simp [longest] at h
            | succ N ih' =>
              intro h
              rw [longest] at h
              split at h
              · rename_i a' h'
                simp only [Option.some.injEq, Prod.mk.injEq] at h
                exact ⟨_, h.2 ▸ h'⟩
              · exact ih' h
          exact this _ h
        obtain ⟨y, hy⟩ := hr
        exact (rule_act hy).2 k rfl

/-! ### A mesh in progress blocks every later load -/

/-- At the beginning of a file only `begin_device` is accepted. -/
theorem step_all (env : Env α) (s : Sess α) (t : Tok) :
    step env s .all t = if t = .kw .begDevice then .ok (.hdr .begDevice []) s else .abort s := by
  cases t with
  | kw k => cases k <;> rfl
  | _ => rfl

/-- **After a load that left a mesh unfinished every later load is in vain**: whatever the file, it either
has no token, and the load succeeds without doing anything, or the load fails; no device, no mesh name and
nothing of the mesh in progress changes. -/
theorem load_blocked (env : Env α) (s : Sess α) (h : s.loader.isSome = true) (stk : Stk) (text : Text) :
    (load env s stk text).2.1 = s.deletePointers ∧
    ((load env s stk text).1 = .fail ∨ ((load env s stk text).1 = .ok ∧ (lex stk true text).1 = [])) := by
  have key : (parse env .all s (lex stk true text).1 (lex stk true text).2).2.1 = s ∧
      ((parse env .all s (lex stk true text).1 (lex stk true text).2).1 = .fail ∨
       ((parse env .all s (lex stk true text).1 (lex stk true text).2).1 = .ok ∧ (lex stk true text).1 = [])) := by
    generalize (lex stk true text).2 = fin
    cases e : (lex stk true text).1 with
    | nil => exact ⟨rfl, .inr ⟨rfl, rfl⟩⟩
    | cons x l =>
      obtain ⟨t, st⟩ := x
      rw [parse, step_all]
      by_cases ht : t = .kw .begDevice
      · rw [if_pos ht]
        simp only
        cases l with
        | nil => exact ⟨rfl, .inl rfl⟩
        | cons y l =>
          obtain ⟨t', st'⟩ := y
          rw [parse]
          have : step env s (.hdr .begDevice []) t' = .abort s := by
            cases t' with
            | word w =>
              show openSec s .begDevice [w] = _
              simp only [openSec, h, if_true]
            | _ => rfl
          rw [this]
          exact ⟨rfl, .inl rfl⟩
      · rw [if_neg ht]
        exact ⟨rfl, .inl rfl⟩
  obtain ⟨k1, k2⟩ := key
  rcases hp : parse env .all s (lex stk true text).1 (lex stk true text).2 with ⟨r, s', stk'⟩
  rw [hp] at k1 k2
  simp only at k1 k2
  subst k1
  simp only [load, hp]
  rcases k2 with rfl | ⟨rfl, h2⟩
  · exact ⟨rfl, .inl rfl⟩
  · exact ⟨rfl, .inr ⟨rfl, h2⟩⟩

/-- Loads one after the other. -/
def loads (env : Env α) (s : Sess α) (stk : Stk) : List Text → Sess α × Stk
  | [] => (s, stk)
  | t :: ts => loads env (load env s stk t).2.1 (load env s stk t).2.2 ts

/-- No sequence of files brings the reader back. -/
theorem loads_blocked (env : Env α) (s : Sess α) (h : s.loader.isSome = true) (stk : Stk) (ts : List Text) :
    (loads env s stk ts).1.devs = s.devs ∧ (loads env s stk ts).1.meshes = s.meshes ∧
    (loads env s stk ts).1.loader = s.loader := by
  induction ts generalizing s stk with
  | nil => exact ⟨rfl, rfl, rfl⟩
  | cons t ts ih =>
    have h1 := (load_blocked env s h stk t).1
    have h2 := ih (load env s stk t).2.1 (by rw [h1]; exact h) (load env s stk t).2.2
    rw [h1] at h2
    rw [loads, h1]
    exact h2

/-- **A start state left over blocks the next load.** -/
theorem load_stuck (env : Env α) (s : Sess α) {stk : Stk} (hstk : stk.cur ≠ .initial) (text : Text) :
    (load env s stk text).2.1 = s.deletePointers ∧
    ((load env s stk text).1 = .fail ∨ ((load env s stk text).1 = .ok ∧ (lex stk true text).1 = [])) := by
  have hnot : ∀ st l, (lex stk true text).1 ≠ (.kw .begDevice, st) :: l := by
    intro st l h
    have := lexF_first _ _ _ _ _ _ _ h
    simp [Kw.secs] at this
    exact hstk this
  have key : ∀ fin, (parse env .all s (lex stk true text).1 fin).2.1 = s ∧
      ((parse env .all s (lex stk true text).1 fin).1 = .fail ∨
       ((parse env .all s (lex stk true text).1 fin).1 = .ok ∧ (lex stk true text).1 = [])) := by
    intro fin
    cases e : (lex stk true text).1 with
    | nil => exact ⟨rfl, .inr ⟨rfl, rfl⟩⟩
    | cons x l =>
      obtain ⟨t, st⟩ := x
      rw [parse, step_all, if_neg (by rintro rfl; exact hnot st l e)]
      exact ⟨rfl, .inl rfl⟩
  have key := key (lex stk true text).2
  obtain ⟨k1, k2⟩ := key
  rcases hp : parse env .all s (lex stk true text).1 (lex stk true text).2 with ⟨r, s', stk'⟩
  rw [hp] at k1 k2
  simp only at k1 k2
  subst k1
  simp only [load, hp]
  rcases k2 with rfl | ⟨rfl, h2⟩
  · exact ⟨rfl, .inl rfl⟩
  · exact ⟨rfl, .inr ⟨rfl, h2⟩⟩

/-! ### How this comes about -/

/-- The text of the first devices of a file, before its end: parsing it fails when the name of a mesh is
taken. -/
theorem load_name_taken {env : Env α} {F : Fmt α} {dn : Text} {d : Dev α} (ds : Devs α) (hn : '"' ∉ dn)
    {ms : List Text} {devs : Devs α} (hms : dn ∈ ms) :
    load env (sIdle ms devs) [] (writeDevices F ((dn, d) :: ds)) = (.fail, sIdle ms devs, [.device]) := by
  obtain ⟨rest, hrest⟩ : ∃ rest, writeDevices F ((dn, d) :: ds) = hdrLine .begDevice [dn] ++ rest := by
    simp only [writeDevices, List.flatMap_cons, writeDevice, List.append_assoc]
    exact ⟨_, rfl⟩
  have h1 := lexes_hdrLine (s := []) .begDevice [dn] (by simp [Stk.cur, Kw.secs])
    (by simp [Kw.act, SAct.run, Stk.cur]) (by simpa using hn) rest trivial
  have h2 := lex_annotate [] true (hdrLine .begDevice [dn] ++ rest)
  rw [h1.1] at h2
  have h3 : step env (sIdle ms devs) .all (.kw .begDevice) = .ok (.hdr .begDevice []) (sIdle ms devs) := by
    rw [step_all, if_pos rfl]
  have h4 : step env (sIdle ms devs) (.hdr .begDevice []) (.word dn) = .abort (sIdle ms devs) := by
    show openSec (sIdle ms devs) .begDevice [dn] = _
    simp only [openSec, sIdle, hms, if_true, Option.isSome_none, Bool.false_eq_true, if_false]
  have h5 : ∀ fin, parse env .all (sIdle ms devs) (lex [] true (hdrLine .begDevice [dn] ++ rest)).1 fin =
      (.fail, sIdle ms devs, [.device]) := by
    intro fin
    rw [h2]
    simp only [List.cons_append, List.map_cons, annotate, parse, h3, h4]
    rfl
  rw [hrest]
  simp only [load, h5]
  rfl

/-- **Loading the file of a device a second time fails**, since the name of the mesh is not forgotten, **and
so does loading any other file afterwards** (`begin_device` is no keyword in the start state that is left
over). The devices that were there are not changed. -/
theorem load_twice {env : Env α} {F : Fmt α} {ds : Devs α} (hne : ds ≠ []) (hW : ∀ e ∈ ds, Writable F e.1 e.2)
    (hd : ∀ e ∈ ds, DevOK env e.2) (hs : SMap.Sorted ds) (other : Text) {a b c : Res × Sess α × Stk}
    (ha : load env {} [] (writeDevices F ds) = a) (hb : load env a.2.1 a.2.2 (writeDevices F ds) = b)
    (hc : load env b.2.1 b.2.2 other = c) :
    a.1 = .ok ∧ b.1 = .fail ∧ b.2.1.devs = a.2.1.devs ∧ b.2.2 = [.device] ∧
    c.2.1.devs = a.2.1.devs ∧ (c.1 = .fail ∨ (lex [.device] true other).1 = []) := by
  have h : load env {} [] (writeDevices F ds) = _ :=
    load_written (env := env) hW hd hs (ms := []) (devs := []) List.Pairwise.nil (by simp [SMap.has])
  obtain ⟨⟨dn, d⟩, ds, rfl⟩ := List.exists_cons_of_ne_nil hne
  generalize hD : loaded env F ((dn, d) :: ds) [] = D at h
  generalize hM : ((List.map Prod.fst ((dn, d) :: ds)).reverse ++ [] : List Text) = M at h
  have hdM : dn ∈ M := by rw [← hM]; simp
  rw [h] at ha
  subst ha
  have hb' : load env (sIdle M D) [] (writeDevices F ((dn, d) :: ds)) = b := hb
  rw [load_name_taken ds (hW (dn, d) (by simp)).name hdM] at hb'
  have hb := hb'
  subst hb
  have ec := load_stuck env (sIdle M D) (stk := [.device]) (by simp [Stk.cur]) other
  rw [hc] at ec
  refine ⟨rfl, rfl, rfl, rfl, ?_, ?_⟩
  · rw [ec.1]; rfl
  · rcases ec.2 with h | h
    · exact .inl h
    · exact .inr h.2

/-- The file of a device without the line `end_device`. -/
theorem truncated_spec (F : Fmt α) (n : Text) (d : Dev α) :
    writeDevices F [(n, d)] = truncated F n d ++ "end_device\n".toList := by
  have h : kwLine .endDevice = "end_device\n".toList := by decide
  rw [writeDevices, List.flatMap_cons, List.flatMap_nil, List.append_nil, writeDevice_truncated, h]

/-- **A file that lacks its last line is accepted**: loading it reports success but creates no device; the
mesh stays in progress, so that (`load_blocked`) every later load fails. -/
theorem load_truncated {env : Env α} {F : Fmt α} {dn : Text} {d : Dev α} (W : Writable F dn d) (h : DevOK env d)
    {ms : List Text} {devs : Devs α} (hms : dn ∉ ms) :
    (load env (sIdle ms devs) [] (truncated F dn d)).1 = .ok ∧
    (load env (sIdle ms devs) [] (truncated F dn d)).2.1.devs = devs ∧
    (load env (sIdle ms devs) [] (truncated F dn d)).2.1.loader.isSome = true := by
  obtain ⟨h1, h2⟩ := lexes_truncated W (s := []) (by simp [Stk.cur]) [] trivial
  rw [List.append_nil] at h1 h2
  have h3 : (lex [.device] true []).1 = [] ∧ (lex [.device] true []).2 = [.device] := by
    constructor <;> rfl
  rw [h3.1, List.map_nil, List.append_nil] at h1
  rw [h3.2] at h2
  obtain ⟨c', hc', h4⟩ := steps_prefix env ms devs F dn d (fun e he => (h.reg e he).file) h.regions.2 h.contacts h.ifaces hms (.inl rfl)
  rw [← h1] at h4
  have h5 := parse_of_steps env (fin := (lex [] true (truncated F dn d)).2) h4
  have h6 : c'.closedN 5 = true := by cases hc' <;> rfl
  rw [h6, if_pos rfl, h2] at h5
  have h7 : load env (sIdle ms devs) [] (truncated F dn d) =
      (.ok, (sDev (mloader env F dn d) (dn :: ms) devs).deletePointers, [.device]) := by
    simp only [load, h2, h5]
  rw [h7]
  exact ⟨rfl, rfl, rfl⟩

/-! ### The conditions are met -/

open Example in
example (other : Text) {a b c : Res × Sess Bool × Stk}
    (ha : load env {} [] (writeDevices F devs) = a) (hb : load env a.2.1 a.2.2 (writeDevices F devs) = b)
    (hc : load env b.2.1 b.2.2 other = c) : a.1 = .ok ∧ b.1 = .fail ∧ c.2.1.devs = a.2.1.devs := by
  have := load_twice (by simp [devs]) (by simpa [devs] using writable) (by simpa [devs] using devOK)
    (by simp [SMap.Sorted, devs]) other ha hb hc
  exact ⟨this.1, this.2.1, this.2.2.2.2.1⟩

open Example in
example : (load env (sIdle [] []) [] (truncated F (t "mos") dev)).1 = .ok ∧
    (load env (sIdle [] []) [] (truncated F (t "mos") dev)).2.1.devs = [] ∧
    (load env (sIdle [] []) [] (truncated F (t "mos") dev)).2.1.loader.isSome = true :=
  load_truncated writable devOK (ms := []) (devs := []) (by simp)

/-! ### Sixteen digits do not determine a double -/

/-- The doubles in `[1/4, 1/2)`: 53-bit integers over `2^54`. -/
def IsDouble (x : ℚ) : Prop := ∃ m : ℕ, 2 ^ 52 ≤ m ∧ m < 2 ^ 53 ∧ x = m / 2 ^ 54

/-- **The printed form does not determine the value**: `0.3` and `0.1 + 0.2` are different doubles; the
integer made of the 16 digits that `std::setprecision(15)` with `std::scientific` prints
(`DevsimWriter.cc:135`) is the same. A value read back may differ from the one written. -/
theorem digits_lossy : ∃ x y : ℚ, IsDouble x ∧ IsDouble y ∧ x ≠ y ∧
    round (x * 10 ^ 16) = 3000000000000000 ∧ round (y * 10 ^ 16) = 3000000000000000 := by
  refine ⟨5404319552844595 / 2 ^ 54, 5404319552844596 / 2 ^ 54, ⟨5404319552844595, by norm_num, by norm_num, by norm_num⟩,
    ⟨5404319552844596, by norm_num, by norm_num, by norm_num⟩, by norm_num, ?_, ?_⟩ <;>
  · rw [round_eq, Int.floor_eq_iff]
    norm_num

/-- So no way of reading numbers restores both. -/
theorem lossy_fmt {env : Env α} {F : Fmt α} {x y : α} (h : F.fmt x = F.fmt y) (hne : x ≠ y) :
    rho env F x ≠ x ∨ rho env F y ≠ y := by
  by_contra hc
  push Not at hc
  exact hne (by rw [← hc.1, ← hc.2, rho, rho, h])

end Verif.MeshIO
