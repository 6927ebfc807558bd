/-!
# The call of a command from Python: `CmdDispatch`, `CommandHandler`, `FPECheck`

What a command does is any program over the interface it is given: it may set results, compute (and so set
floating point flags of the processor), raise or clear flags, look at them, read and change the state of the
simulator, throw, and call Python, which may call commands again (`custom_equation`,
`EquationCommands.cc`, `InstanceKeeper` and procedures given as names).

Simplifications: reference counts and the interpreter lock are not modelled; the C++ exceptions that are not
caught here (not derived of `std::exception`) are not modelled; messages are the strings built here.
-/
namespace Verif.Disp

/-- The exceptions of floating point, `<cfenv>`, in the order of `FPECheck::getFPEString`,
`FPECheck.cc` 107-158. -/
inductive Flag | invalid | divByZero | inexact | overflow | underflow
  deriving DecidableEq

abbrev Flags := Flag → Bool

/-- `FPECheck::getClearedFlag`, `FPECheck.cc` 166-169. -/
def cleared : Flags := fun _ => false

/-- `FPECheck::combineFPEFlags`, `FPECheck.cc` 171-174. -/
def combine (a b : Flags) : Flags := fun x => a x || b x

/-- `FPECheck::getFPEMask`, `FPECheck.cc` 68-71. -/
def mask : Flags
  | .invalid | .divByZero | .overflow => true
  | .inexact | .underflow => false

/-- The flags of the processor and `FPECheck::fpe_raised_`, `FPECheck.hh` 44, with the state of the
simulator. -/
structure World (σ : Type) where
  hw : Flags
  raised : Flags
  state : σ

/-- `FPECheck::ClearFPE`, `FPECheck.cc` 62-66. -/
def World.clear {σ : Type} (w : World σ) : World σ := { w with hw := cleared, raised := cleared }

/-- `FPECheck::getFPEFlags`, `FPECheck.cc` 73-76. -/
def World.flags {σ : Type} (w : World σ) : Flags := combine (fun x => w.hw x && mask x) w.raised

/-- All flags, in the order they are named. -/
def allFlags : List Flag := [.invalid, .divByZero, .inexact, .overflow, .underflow]

/-- `FPECheck::CheckFPE`, `FPECheck.cc` 78-81. -/
def World.check {σ : Type} (w : World σ) : Bool := allFlags.any w.flags

/-- The names in `FPECheck::getFPEString`, `FPECheck.cc` 107-158. -/
def Flag.name : Flag → String
  | .invalid => "Invalid"
  | .divByZero => "Divide-by-zero"
  | .inexact => "Inexact"
  | .overflow => "Overflow"
  | .underflow => "Underflow"

/-- `FPECheck::getFPEString`, `FPECheck.cc` 107-164. -/
def fpeString (f : Flags) : String := ", ".intercalate ((allFlags.filter f).map Flag.name)

/-- What is caught, `PythonCommands.cc` 122-140. -/
inductive Exc
  | ds (what : String)
  | badAlloc (what : String)
  | std (what : String)

/-- The text of a caught exception, `PythonCommands.cc` 122-140. -/
def Exc.text : Exc → String
  | .ds s => s
  | .badAlloc s => "OUT OF MEMORY\n" ++ s
  | .std s => "UNEXPECTED ERROR\n" ++ s

/-- What the caller in Python gets: an object, or `devsim.error` with a message. -/
inductive Outcome (O : Type)
  | value (o : O)
  | error (message : String)

/-- The body of a command. -/
inductive Prog (σ O : Type)
  /-- the command returns -/
  | done
  /-- `SetErrorResult` -/
  | err (s : String) (k : Prog σ O)
  /-- `SetObjectResult`, and the setters of `CommandHandlerCommon.cc` 10-56; `none` is an `ObjectHolder`
  that holds nothing -/
  | obj (o : Option O) (k : Prog σ O)
  /-- `SetEmptyResult` -/
  | empty (k : Prog σ O)
  /-- arithmetic that sets flags of the processor -/
  | arith (f : Flags) (k : Prog σ O)
  /-- `FPECheck::raiseFPE` -/
  | raise (f : Flags) (k : Prog σ O)
  /-- `FPECheck::ClearFPE` -/
  | clear (k : Prog σ O)
  /-- `FPECheck::CheckFPE` -/
  | test (k : Bool → Prog σ O)
  /-- the state is read -/
  | read (k : σ → Prog σ O)
  /-- the state is changed -/
  | write (g : σ → σ) (k : Prog σ O)
  /-- an exception -/
  | throw (e : Exc)
  /-- a command called by Python called by this command, and what is done with its outcome -/
  | call (name : String) (positional : Bool) (body : Prog σ O) (k : Outcome O → Prog σ O)

/-- `CommandHandler`, `CommandHandler.hh`. -/
structure Handler (O : Type) where
  code : Nat
  object : Option O
  text : String

/-- `CommandHandler::CommandHandler`, `CommandHandler.cc` 14-19. -/
def Handler.start {O : Type} : Handler O := ⟨0, none, ""⟩

/-- `CommandHandler::SetErrorResult`, `CommandHandler.cc` 40-45. -/
def Handler.err {O : Type} (_ : Handler O) (s : String) : Handler O := ⟨0, none, s⟩

/-- `CommandHandler::SetObjectResult`, `CommandHandler.cc` 47-52. -/
def Handler.obj {O : Type} (_ : Handler O) (o : Option O) : Handler O := ⟨1, o, ""⟩

/-- `PythonCommands.cc` 71-90: positional arguments. -/
def refusal (name : String) : String := "Command " ++ name ++ " does not take positional arguments"

/-- `PythonCommands.cc` 106-120: object and message after a command that has returned. -/
def collect {O : Type} (h : Handler O) : Option O × String :=
  match h.object with
  | none => (none, h.text)
  | some o =>
    if h.code = 0 then (none, h.text ++ "UNEXPECTED: Error return with returned object\n")
    else (some o, h.text)

/-- `PythonCommands.cc` 149-151. -/
def fpeMessage (f : Flags) : String :=
  "Uncaught FPE: There was an uncaught floating point exception of type \"" ++ fpeString f ++ "\"\n"

/-- `PythonCommands.cc` 146-166: what is done after the command, returned or caught. -/
def conclude {σ O : Type} (r : Option O × String) (w : World σ) : World σ × Outcome O :=
  if w.check then (w.clear, .error (r.2 ++ fpeMessage w.flags))
  else match r.1 with
    | some o => (w, .value o)
    | none => (w, .error r.2)

/-- `PythonCommands.cc` 92-168: after the body has run. -/
def close {σ O : Type} (x : World σ × Handler O × Option Exc) : World σ × Outcome O :=
  match x with
  | (w, h, none) => conclude (collect h) w
  | (w, _, some e) => conclude (none, e.text) w

/-- A body; a nested `CmdDispatch` is `PythonCommands.cc` 61-169 again. `FPECheck::raiseFPE`,
`FPECheck.cc` 176-180. `pyNone` is Python's `None`, `CommandHandler.cc` 32-38. -/
def run {σ O : Type} (pyNone : O) : Prog σ O → World σ → Handler O → World σ × Handler O × Option Exc
  | .done, w, h => (w, h, none)
  | .err s k, w, h => run pyNone k w (h.err s)
  | .obj o k, w, h => run pyNone k w (h.obj o)
  | .empty k, w, h => run pyNone k w (h.obj (some pyNone))
  | .arith f k, w, h => run pyNone k { w with hw := combine w.hw f } h
  | .raise f k, w, h => run pyNone k { w with hw := combine w.hw f, raised := combine w.raised f } h
  | .clear k, w, h => run pyNone k w.clear h
  | .test k, w, h => run pyNone (k w.check) w h
  | .read k, w, h => run pyNone (k w.state) w h
  | .write g k, w, h => run pyNone k { w with state := g w.state } h
  | .throw e, w, h => (w, h, some e)
  | .call name pos body k, w, h =>
    let r := if pos then (w.clear, .error (refusal name)) else close (run pyNone body w.clear Handler.start)
    run pyNone (k r.2) r.1 h

/-- `CmdDispatch`, `PythonCommands.cc` 61-169. -/
def dispatch {σ O : Type} (pyNone : O) (name : String) (positional : Bool) (body : Prog σ O) (w : World σ) :
    World σ × Outcome O :=
  if positional then (w.clear, .error (refusal name))
  else close (run pyNone body w.clear Handler.start)

/-- A script: calls one after another. -/
def session {σ O : Type} (pyNone : O) : List (String × Bool × Prog σ O) → World σ → World σ × List (Outcome O)
  | [], w => (w, [])
  | (n, p, b) :: l, w =>
    let r := dispatch pyNone n p b w
    let q := session pyNone l r.1
    (q.1, r.2 :: q.2)

end Verif.Disp
