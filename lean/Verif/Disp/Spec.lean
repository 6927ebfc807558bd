import Verif.Disp.Model
/-!
# What a call means, from its history alone

A run is what happened: which flags came up, when they were taken down, which answers were given, how the
state changed. No flag is stored: a flag is *pending* if it came up and was not taken down since.
-/
namespace Verif.Disp

/-- What happens to the flags. -/
inductive Ev
  | up (f : Flags)
  | down

/-- A serious flag came up and none were taken down since (latest event first). -/
def Pending (h : List Ev) (x : Flag) : Prop :=
  ∃ post pre f, h = post ++ Ev.up f :: pre ∧ f x = true ∧ Ev.down ∉ post

/-- The flags that count. -/
def Serious (x : Flag) : Prop := x = .invalid ∨ x = .divByZero ∨ x = .overflow

/-- There is a floating point exception nobody has looked at. -/
def Trouble (h : List Ev) : Prop := ∃ x, Serious x ∧ Pending h x

/-- An answer of a command. -/
inductive Answer (O : Type)
  | error (s : String)
  | object (o : Option O)

/-- Code that raises flags by hand raises only serious ones (so it is in `MathPacket.cc` 116-120,
`ParallelOpEqual.cc` 102-106 and `FPECheck::ManualCheckAndRaiseFPE`). -/
def ByHand {σ O : Type} : Prog σ O → Prop
  | .done => True
  | .throw _ => True
  | .err _ k => ByHand k
  | .obj _ k => ByHand k
  | .empty k => ByHand k
  | .arith _ k => ByHand k
  | .raise f k => (∀ x, f x = true → Serious x) ∧ ByHand k
  | .clear k => ByHand k
  | .test k => ∀ b, ByHand (k b)
  | .read k => ∀ s, ByHand (k s)
  | .write _ k => ByHand k
  | .call _ _ b k => ByHand b ∧ ∀ o, ByHand (k o)

/-- How a command came to its end: the flags, its own answers (last first), the state, and the exception. -/
structure Finish (σ O : Type) where
  flags : List Ev
  answers : List (Answer O)
  state : σ
  exc : Option Exc

/-- What is said about an exception. -/
def Exc.said : Exc → String
  | .ds s => s
  | .badAlloc s => "OUT OF MEMORY\n" ++ s
  | .std s => "UNEXPECTED ERROR\n" ++ s

/-- How a flag is called. -/
def Flag.called : Flag → String
  | .invalid => "Invalid"
  | .divByZero => "Divide-by-zero"
  | .inexact => "Inexact"
  | .overflow => "Overflow"
  | .underflow => "Underflow"

/-- The message of a command, if it fails: of the exception, else of the last answer. -/
def Finish.message {σ O : Type} (F : Finish σ O) : String :=
  match F.exc with
  | some e => e.said
  | none => match F.answers with
    | .error s :: _ => s
    | _ => ""

/-- What the caller must see at the end of a command. -/
inductive Seen {σ O : Type} : Finish σ O → Outcome O → Prop
  /-- the last answer is an object, nothing was thrown, no flag is pending -/
  | value {F : Finish σ O} {o : O} {r : List (Answer O)} :
      F.exc = none → F.answers = .object (some o) :: r → ¬ Trouble F.flags → Seen F (.value o)
  /-- the last answer is an error -/
  | refused {F : Finish σ O} {s : String} {r : List (Answer O)} :
      F.exc = none → F.answers = .error s :: r → ¬ Trouble F.flags → Seen F (.error s)
  /-- nothing was answered, or an object that is none -/
  | silent {F : Finish σ O} :
      F.exc = none → (F.answers = [] ∨ ∃ r, F.answers = .object none :: r) → ¬ Trouble F.flags →
      Seen F (.error "")
  /-- an exception came out -/
  | thrown {F : Finish σ O} {e : Exc} : F.exc = some e → ¬ Trouble F.flags → Seen F (.error e.said)
  /-- a flag is pending: an error whatever the answer, and its message ends with the names of the flags -/
  | trouble {F : Finish σ O} {names : List Flag} : Trouble F.flags →
      (∀ x, x ∈ names ↔ Serious x ∧ Pending F.flags x) →
      names.Sublist [.invalid, .divByZero, .inexact, .overflow, .underflow] →
      Seen F (.error (F.message ++
        ("Uncaught FPE: There was an uncaught floating point exception of type \""
        ++ ", ".intercalate (names.map Flag.called) ++ "\"\n")))

/-- After a call the flags of a trouble are taken down; else they stay. -/
inductive After : List Ev → List Ev → Prop
  | calm {h : List Ev} : ¬ Trouble h → After h h
  | trouble {h : List Ev} : Trouble h → After h (.down :: h)

mutual
/-- `Runs p h a s F`: the command `p`, begun after the flags `h`, the answers `a` and in the state `s`,
comes to the end `F`. -/
inductive Runs {σ O : Type} (pyNone : O) : Prog σ O → List Ev → List (Answer O) → σ → Finish σ O → Prop
  | done {h a s} : Runs pyNone .done h a s ⟨h, a, s, none⟩
  | throw {h a s e} : Runs pyNone (.throw e) h a s ⟨h, a, s, some e⟩
  | err {t k h a s F} : Runs pyNone k h (.error t :: a) s F → Runs pyNone (.err t k) h a s F
  | obj {o k h a s F} : Runs pyNone k h (.object o :: a) s F → Runs pyNone (.obj o k) h a s F
  | empty {k h a s F} : Runs pyNone k h (.object (some pyNone) :: a) s F → Runs pyNone (.empty k) h a s F
  | arith {f k h a s F} : Runs pyNone k (.up f :: h) a s F → Runs pyNone (.arith f k) h a s F
  | raise {f k h a s F} : Runs pyNone k (.up f :: h) a s F → Runs pyNone (.raise f k) h a s F
  | clear {k h a s F} : Runs pyNone k (.down :: h) a s F → Runs pyNone (.clear k) h a s F
  | yes {k h a s F} : Trouble h → Runs pyNone (k true) h a s F → Runs pyNone (.test k) h a s F
  | no {k h a s F} : ¬ Trouble h → Runs pyNone (k false) h a s F → Runs pyNone (.test k) h a s F
  | read {k h a s F} : Runs pyNone (k s) h a s F → Runs pyNone (.read k) h a s F
  | write {g k h a s F} : Runs pyNone k h a (g s) F → Runs pyNone (.write g k) h a s F
  | call {n b p k h a s h' s' o F} : Calls pyNone n b p h s h' s' o → Runs pyNone (k o) h' a s' F →
      Runs pyNone (.call n b p k) h a s F
/-- `Calls n b p h s h' s' o`: the call of the command `n` with the body `p`, with positional arguments or
without, after the flags `h` and in the state `s`, leaves `h'` and `s'`, and the caller sees `o`. -/
inductive Calls {σ O : Type} (pyNone : O) :
    String → Bool → Prog σ O → List Ev → σ → List Ev → σ → Outcome O → Prop
  | positional {n p h s} : Calls pyNone n true p h s (.down :: h) s
      (.error ("Command " ++ n ++ " does not take positional arguments"))
  | command {n p h s F h' o} : Runs pyNone p (.down :: h) [] s F → After F.flags h' → Seen F o →
      Calls pyNone n false p h s h' F.state o
end

end Verif.Disp
