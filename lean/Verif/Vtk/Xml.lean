import Mathlib.Data.List.Basic
import Mathlib.Tactic.NormNum

/-!
# A reader of XML

This is a specification: a small reader of XML files (elements, attributes, text; no entities), written without
regard to the writer of `VTKWriter.cc`. It gives the list of all elements, in the order in which they end, each with
its path, attributes and text.
-/

namespace Verif.Vtk

abbrev Text := List Char
abbrev Attrs := List (Text × Text)

/-- Run a machine with output. -/
def runM {σ α β : Type} (step : σ → α → Option (σ × List β)) : σ → List α → Option (σ × List β)
  | s, [] => some (s, [])
  | s, a :: l =>
    match step s a with
    | none => none
    | some (s1, o1) =>
      match runM step s1 l with
      | none => none
      | some (s2, o2) => some (s2, o1 ++ o2)

/-- Markup and text. -/
inductive Ev
  | opn (t : Text) (a : Attrs)
  | slf (t : Text) (a : Attrs)
  | cls (t : Text)
  | chars (s : Text)

/-- Where the reader is. -/
inductive LS
  | txt (t : Text)
  | lt
  | decl
  | clo (t : Text)
  | tag (t : Text)
  | sp (t : Text) (a : Attrs)
  | an (t : Text) (a : Attrs) (n : Text)
  | eq (t : Text) (a : Attrs) (n : Text)
  | av (t : Text) (a : Attrs) (n v : Text)
  | sl (t : Text) (a : Attrs)

def nameC (c : Char) : Bool := c.isAlphanum || c = '_'

/-- One character. -/
def lstep : LS → Char → Option (LS × List Ev)
  | .txt t, c => if c = '<' then some (.lt, [.chars t]) else if c = '&' then none else some (.txt (t ++ [c]), [])
  | .lt, c => if c = '?' then some (.decl, []) else if c = '/' then some (.clo [], [])
    else if nameC c then some (.tag [c], []) else none
  | .decl, c => if c = '>' then some (.txt [], []) else some (.decl, [])
  | .clo t, c => if c = '>' then some (.txt [], [.cls t]) else if nameC c then some (.clo (t ++ [c]), []) else none
  | .tag t, c => if c = '>' then some (.txt [], [.opn t []]) else if c = ' ' then some (.sp t [], [])
    else if c = '/' then some (.sl t [], []) else if nameC c then some (.tag (t ++ [c]), []) else none
  | .sp t a, c => if c = '>' then some (.txt [], [.opn t a]) else if c = ' ' then some (.sp t a, [])
    else if c = '/' then some (.sl t a, []) else if nameC c then some (.an t a [c], []) else none
  | .an t a n, c => if c = '=' then some (.eq t a n, []) else if nameC c then some (.an t a (n ++ [c]), []) else none
  | .eq t a n, c => if c = '"' then some (.av t a n [], []) else none
  | .av t a n v, c => if c = '"' then some (.sp t (a ++ [(n, v)]), [])
    else if c = '<' then none else if c = '&' then none else some (.av t a n (v ++ [c]), [])
  | .sl t a, c => if c = '>' then some (.txt [], [.slf t a]) else none

/-- An element: the tags from the root to it, its attributes and its text. -/
structure Item where
  path : List Text
  attrs : Attrs
  text : Text

/-- The elements that are open, the innermost first. -/
abbrev Stack := List (Text × Attrs × Text)

def Stack.path (s : Stack) : List Text := (s.map (·.1)).reverse

def isWs (c : Char) : Bool := c = ' ' || c = '\n' || c = '\t' || c = '\r'

/-- One piece of markup. Text of blanks is dropped. -/
def bstep : Stack → Ev → Option (Stack × List Item)
  | s, .opn t a => some ((t, a, []) :: s, [])
  | s, .slf t a => some (s, [⟨Stack.path s ++ [t], a, []⟩])
  | (t, a, x) :: s, .cls u => if t = u then some (s, [⟨Stack.path s ++ [t], a, x⟩]) else none
  | [], .cls _ => none
  | s, .chars y => if y.all isWs then some (s, []) else
    match s with
    | [] => none
    | (t, a, x) :: s => some ((t, a, x ++ y) :: s, [])

/-- Both machines together. -/
def cstep (s : LS × Stack) (c : Char) : Option ((LS × Stack) × List Item) :=
  match lstep s.1 c with
  | none => none
  | some (l, evs) =>
    match runM bstep s.2 evs with
    | none => none
    | some (k, items) => some ((l, k), items)

/-- All elements of a file. -/
def readXml (x : Text) : Option (List Item) :=
  match runM cstep (.txt [], []) x with
  | some ((.txt t, []), items) => if t.all isWs then some items else none
  | _ => none

/-! ### Numbers and words -/

def readNat (t : Text) : Option ℕ := if t ≠ [] ∧ t.all Char.isDigit = true then some (Nat.ofDigitChars 10 t 0) else none

/-- The words of a text; the first argument is the word that was begun. -/
def wordsFrom : Text → Text → List Text
  | w, [] => if w = [] then [] else [w]
  | w, c :: cs => if isWs c then (if w = [] then [] else [w]) ++ wordsFrom [] cs else wordsFrom (w ++ [c]) cs

def words (t : Text) : List Text := wordsFrom [] t

def readNats (t : Text) : Option (List ℕ) := (words t).mapM readNat

/-! ### Lemmas -/

theorem runM_append {σ α β : Type} {step : σ → α → Option (σ × List β)} {s s1 s2 : σ} {x y : List α} {o1 o2 : List β}
    (h1 : runM step s x = some (s1, o1)) (h2 : runM step s1 y = some (s2, o2)) :
    runM step s (x ++ y) = some (s2, o1 ++ o2) := by
  induction x generalizing s o1 with
  | nil =>
    simp only [runM, Option.some.injEq, Prod.mk.injEq] at h1
    obtain ⟨rfl, rfl⟩ := h1
    simpa using h2
  | cons a l ih =>
    simp only [runM, List.cons_append] at h1 ⊢
    cases hs : step s a with
    | none => rw [hs] at h1; simp at h1
    | some p =>
      obtain ⟨t, o⟩ := p
      rw [hs] at h1
      simp only at h1 ⊢
      cases hr : runM step t l with
      | none => rw [hr] at h1; simp at h1
      | some q =>
        obtain ⟨t2, o'⟩ := q
        rw [hr] at h1
        simp only [Option.some.injEq, Prod.mk.injEq] at h1
        obtain ⟨rfl, rfl⟩ := h1
        rw [ih hr]
        simp

theorem runM_none {σ α β : Type} {step : σ → α → Option (σ × List β)} {s s1 : σ} {x y : List α} {o1 : List β} {c : α}
    (h1 : runM step s x = some (s1, o1)) (h2 : step s1 c = none) : runM step s (x ++ c :: y) = none := by
  induction x generalizing s o1 with
  | nil =>
    simp only [runM, Option.some.injEq, Prod.mk.injEq] at h1
    obtain ⟨rfl, rfl⟩ := h1
    simp [runM, h2]
  | cons a l ih =>
    simp only [runM, List.cons_append] at h1 ⊢
    cases hs : step s a with
    | none => rfl
    | some p =>
      obtain ⟨t, o⟩ := p
      rw [hs] at h1
      simp only at h1 ⊢
      cases hr : runM step t l with
      | none => rw [hr] at h1; simp at h1
      | some q =>
        obtain ⟨t2, o'⟩ := q
        rw [hr] at h1
        simp only [Option.some.injEq, Prod.mk.injEq] at h1
        obtain ⟨rfl, rfl⟩ := h1
        rw [ih hr]

/-- `x` takes the reader from one state to another, with these elements. -/
def Reads (s : LS × Stack) (x : Text) (items : List Item) (s' : LS × Stack) : Prop := runM cstep s x = some (s', items)

theorem Reads.append {s s1 s2 : LS × Stack} {x y : Text} {i j : List Item} (h1 : Reads s x i s1) (h2 : Reads s1 y j s2) :
    Reads s (x ++ y) (i ++ j) s2 := runM_append h1 h2

theorem Reads.nil (s : LS × Stack) : Reads s [] [] s := rfl

theorem Reads.cons {s s1 s2 : LS × Stack} {c : Char} {y : Text} {i j : List Item} (h1 : cstep s c = some (s1, i)) (h2 : Reads s1 y j s2) :
    Reads s (c :: y) (i ++ j) s2 := by
  refine runM_append (x := [c]) ?_ h2
  simp [runM, h1]

/-- Text. -/
theorem reads_text {t x : Text} {k : Stack} (h : ∀ c ∈ x, c ≠ '<' ∧ c ≠ '&') : Reads (.txt t, k) x [] (.txt (t ++ x), k) := by
  induction x generalizing t with
  | nil => rw [List.append_nil]; exact Reads.nil _
  | cons c x ih =>
    have h1 := h c (by simp)
    have h2 := ih (t := t ++ [c]) fun d hd => h d (by simp [hd])
    rw [List.append_assoc] at h2
    exact Reads.cons (i := []) (by simp [cstep, lstep, h1.1, h1.2, runM]) h2

/-- What may be between quotes. -/
def AttrOK (x : Text) : Prop := ∀ c ∈ x, c ≠ '<' ∧ c ≠ '&' ∧ c ≠ '"'

theorem reads_val {t : Text} {a : Attrs} {n v x : Text} {k : Stack} (h : AttrOK x) :
    Reads (.av t a n v, k) x [] (.av t a n (v ++ x), k) := by
  induction x generalizing v with
  | nil => rw [List.append_nil]; exact Reads.nil _
  | cons c x ih =>
    have h1 := h c (by simp)
    have h2 := ih (v := v ++ [c]) fun d hd => h d (by simp [hd])
    rw [List.append_assoc] at h2
    exact Reads.cons (i := []) (by simp [cstep, lstep, h1.1, h1.2.1, h1.2.2, runM]) h2

theorem Reads.flatMap {β : Type} {s : LS × Stack} {f : β → Text} {g : β → List Item} (l : List β)
    (h : ∀ b ∈ l, Reads s (f b) (g b) s) : Reads s (l.flatMap f) (l.flatMap g) s := by
  induction l with
  | nil => exact Reads.nil _
  | cons b l ih =>
    rw [List.flatMap_cons, List.flatMap_cons]
    exact (h b (by simp)).append (ih fun c hc => h c (by simp [hc]))

/-! ### Numbers -/

def showNat (n : ℕ) : Text := Nat.toDigits 10 n

theorem showNat_digits (n : ℕ) : ∀ c ∈ showNat n, c.isDigit = true := fun _ hc =>
  Nat.isDigit_of_mem_toDigits (by norm_num) (by norm_num) hc

theorem showNat_ne (n : ℕ) : showNat n ≠ [] := Nat.toDigits_ne_nil

theorem readNat_showNat (n : ℕ) : readNat (showNat n) = some n := by
  unfold readNat
  rw [if_pos ⟨showNat_ne n, List.all_eq_true.2 (showNat_digits n)⟩]
  unfold showNat
  rw [Nat.ofDigitChars_toDigits (by norm_num) (by norm_num)]

theorem digit_ne {c : Char} (h : c.isDigit = true) : isWs c = false ∧ c ≠ '<' ∧ c ≠ '&' ∧ c ≠ '"' := by
  refine ⟨?_, ?_, ?_, ?_⟩
  · unfold isWs
    simp only [Bool.or_eq_false_iff, decide_eq_false_iff_not]
    refine ⟨⟨⟨?_, ?_⟩, ?_⟩, ?_⟩ <;> rintro rfl <;> revert h <;> decide
  all_goals rintro rfl; revert h; decide

theorem showNat_attr (n : ℕ) : AttrOK (showNat n) := fun c hc => (digit_ne (showNat_digits n c hc)).2

theorem wordsFrom_word {w : Text} (hw : ∀ c ∈ w, isWs c = false) : ∀ (v : Text) (x : Text), wordsFrom v (w ++ x) = wordsFrom (v ++ w) x := by
  induction w with
  | nil => intro v x; simp
  | cons c w ih =>
    intro v x
    have h1 := hw c (by simp)
    rw [List.cons_append, wordsFrom, if_neg (by simp [h1]), ih (fun d hd => hw d (by simp [hd]))]
    simp

/-- Words with a blank before each. -/
def spaced (ws : List Text) : Text := ws.flatMap fun w => ' ' :: w

theorem words_spaced (ws : List Text) (h : ∀ w ∈ ws, w ≠ [] ∧ ∀ c ∈ w, isWs c = false) (pre : Text) (hpre : pre.all isWs = true) :
    words (pre ++ spaced ws ++ ['\n']) = ws := by
  have hp : ∀ (p : Text), p.all isWs = true → ∀ x, wordsFrom [] (p ++ x) = wordsFrom [] x := by
    intro p hp x
    induction p with
    | nil => rfl
    | cons c p ih =>
      simp only [List.all_cons, Bool.and_eq_true] at hp
      rw [List.cons_append, wordsFrom, if_pos hp.1, if_pos rfl, List.nil_append, ih hp.2]
  have key : ∀ (ws : List Text) (w : Text), (∀ w ∈ ws, w ≠ [] ∧ ∀ c ∈ w, isWs c = false) →
      wordsFrom w (spaced ws ++ ['\n']) = (if w = [] then [] else [w]) ++ ws := by
    intro ws
    induction ws with
    | nil => intro w _; simp [spaced, wordsFrom, isWs]
    | cons u ws ih =>
      intro w hu
      have h1 := hu u (by simp)
      have hsp : spaced (u :: ws) = ' ' :: (u ++ spaced ws) := by simp [spaced]
      rw [hsp, List.cons_append, wordsFrom, if_pos (by rfl), List.append_assoc, wordsFrom_word h1.2, List.nil_append,
        ih u (fun v hv => hu v (by simp [hv])), if_neg h1.1]
      simp
  unfold words
  rw [List.append_assoc, hp pre hpre, key ws [] h, if_pos rfl, List.nil_append]

theorem readNats_spaced (ns : List ℕ) : readNats ('\n' :: spaced (ns.map showNat) ++ ['\n']) = some ns := by
  unfold readNats
  have := words_spaced (ns.map showNat) (by
    intro w hw
    obtain ⟨n, -, rfl⟩ := List.mem_map.1 hw
    exact ⟨showNat_ne n, fun c hc => (digit_ne (showNat_digits n c hc)).1⟩) ['\n'] (by decide)
  rw [show '\n' :: spaced (ns.map showNat) ++ ['\n'] = ['\n'] ++ spaced (ns.map showNat) ++ ['\n'] by simp, this]
  induction ns with
  | nil => rfl
  | cons n ns ih =>
    rw [List.map_cons, List.mapM_cons, readNat_showNat]
    have := ih (by
      refine words_spaced _ ?_ ['\n'] (by decide)
      intro w hw
      obtain ⟨n, -, rfl⟩ := List.mem_map.1 hw
      exact ⟨showNat_ne n, fun c hc => (digit_ne (showNat_digits n c hc)).1⟩)
    rw [this]
    rfl

theorem spaced_text (ns : List ℕ) : ∀ c ∈ spaced (ns.map showNat), c ≠ '<' ∧ c ≠ '&' := by
  intro c hc
  obtain ⟨w, hw, hc⟩ := List.mem_flatMap.1 hc
  obtain ⟨n, -, rfl⟩ := List.mem_map.1 hw
  rcases List.mem_cons.1 hc with rfl | hc
  · decide
  · have := digit_ne (showNat_digits n c hc)
    exact ⟨this.2.1, this.2.2.1⟩

end Verif.Vtk
