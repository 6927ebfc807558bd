/-
Model of the threaded array kernels:
`/repo/src/models/ParallelOpEqual.cc` (`OpEqualRun`), `/repo/src/MathEval/MathPacket.cc` (`MathPacketRun`), whose
scheduling loops are identical, and the loop bodies of `/repo/src/models/ParallelOpEqual.hh:19-28,44-52`.
-/
namespace Verif.Parallel

/-- `size_t` arithmetic is modulo `2^64`. -/
def W : Nat := 2 ^ 64

/-- ParallelOpEqual.cc:83-86 / MathPacket.cc:97-100: the new `e` after `e += step`; `vlen - 2` wraps around
when `vlen < 2`, as `size_t` does. -/
def nextE (vlen step e : Nat) : Nat :=
  let e' := (e + step) % W
  if e' > (vlen + W - 2) % W then vlen else e'

/-- ParallelOpEqual.cc:73-87 / MathPacket.cc:87-101: `while (b < e) { task [b,e); b = e; e = ... }`.
`none` means that the loop did not end within `fuel` iterations. -/
def taskLoop (vlen step : Nat) : Nat → Nat → Nat → Option (List (Nat × Nat))
  | 0, _, _ => none
  | fuel + 1, b, e =>
    if b < e then
      match taskLoop vlen step fuel e (nextE vlen step e) with
      | none => none
      | some r => some ((b, e) :: r)
    else some []

/-- ParallelOpEqual.cc:58-72,109-112 / MathPacket.cc:74-86,123-126: the ranges processed, in creation order.
In the non-threaded case the whole range is processed by the calling thread. -/
def taskRanges (numThreads taskSize vlen : Nat) (fuel : Nat) : Option (List (Nat × Nat)) :=
  if numThreads > 1 ∧ vlen > taskSize then
    let step := vlen / numThreads
    taskLoop vlen step fuel 0 (if step = 0 then vlen else step)
  else some [(0, vlen)]

/-! ### Execution of the workers

Each worker executes, for its indices in increasing order, `x[i] = f i x[i]` (ParallelOpEqual.hh:19-28, 44-52;
for `MathPacket`, `result[i] = func(...)`, MathWrapper.cc:*Evaluate* loops).  A load and a store are separate steps, so that
the steps of different workers can interleave between them. -/

inductive Act where
  | load (i : Nat)
  | store (i : Nat)
  deriving DecidableEq, Repr

/-- shared array and one private register per worker -/
structure St (α : Type) where
  arr : Nat → α
  reg : Nat → α

/-- one step of worker `w` -/
def stepAct {α : Type} (f : Nat → α → α) (s : St α) (wa : Nat × Act) : St α :=
  match wa.2 with
  | .load i => { s with reg := fun v => if v = wa.1 then s.arr i else s.reg v }
  | .store i => { s with arr := fun j => if j = i then f i (s.reg wa.1) else s.arr j }

def exec {α : Type} (f : Nat → α → α) (s : St α) (l : List (Nat × Act)) : St α :=
  l.foldl (stepAct f) s

/-- ParallelOpEqual.hh:19-28: the steps of one worker on the range `[b, b+n)`. -/
def prog (b : Nat) : Nat → List Act
  | 0 => []
  | n + 1 => Act.load b :: Act.store b :: prog (b + 1) n

/-- ParallelOpEqual.cc:33-38,96-106; MathPacket.cc:44-53: joining the per-packet results.  Flags are bit
sets combined by `|` (FPECheck.cc:171-174); `n` counts the processed elements. -/
structure Packet where
  flag : Nat
  n : Nat
  err : String

def join (a b : Packet) : Packet :=
  { flag := a.flag ||| b.flag, n := a.n + b.n, err := if a.err ≠ b.err then a.err ++ b.err else a.err }

def joinAll (ps : List Packet) : Packet := ps.foldl join ⟨0, 0, ""⟩

end Verif.Parallel
