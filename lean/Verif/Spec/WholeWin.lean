import Verif.Spec.WinCreators
import Verif.Spec.WinLoops
import Verif.Model.WholeWin
/-! # Specification vocabulary for a whole broker process on Windows -/
namespace Iris.Spec

/-- At first there are no calls and no threads; the handles and pipes are those of a process (`NoWinCalls`). -/
structure NoWinWorkers (w : WholeWin) : Prop where
  calls : NoWinCalls ⟨w.world, w.calls⟩
  threads : ∀ j, w.threads j = none

/-- The handles opened for worker `j`, by the call creating it or by the thread serving it, and not closed, going only by what each
of their system calls did to the handles of the broker. -/
def HandleFor (j : Nat) (ls : List WholeWinEvent) : BitVec 64 → Prop :=
  ls.foldl (fun held l => match l with
    | .step k before after =>
      if k = j then fun h => after.pw.handles.get h ≠ none ∧ (held h ∨ before.pw.handles.get h = none) else held
    | .serve k before after =>
      if k = j then fun h => after.broker.get h ≠ none ∧ (held h ∨ before.broker.get h = none) else held
    | _ => held) fun _ => False

/-- What the thread serving worker `j` received, in order. -/
def winHeardBy (j : Nat) (ls : List WholeWinEvent) : List (WinIncoming × WinChoice) :=
  ls.filterMap fun
    | .recv k inc os _ => if k = j then some (inc, os) else none
    | _ => none

/-- No worker has sent a message naming a handle. -/
def NoneNamed (ls : List WholeWinEvent) : Prop :=
  ∀ j inc os s, .recv j inc os s ∈ ls → winNamed inc = none

/-- The handles of the broker are changed by a system call made for worker `j`, to create or to serve it. -/
def WinStepOf (j : Nat) (l : WholeWinEvent) (before after : HTable) : Prop :=
  (∃ b a : WinWorld, l = .step j b a ∧ before = b.pw.handles ∧ after = a.pw.handles) ∨
  ∃ b a : WinShared, l = .serve j b a ∧ before = b.broker ∧ after = a.broker

/-- `pipe` is the object of the broker's end of the pipe whose other end the process `ch` of worker `j` was given, under the value
its environment names: the two were connected at a system call of the creation of worker `j`. -/
def PipeTo (j : Nat) (ls : List WholeWinEvent) (ch : WinChild) (pipe : Nat) : Prop :=
  ∃ before after, .step j before after ∈ ls ∧ ∃ i ∈ after.pw.pipes, ∃ client chan, i.server = pipe ∧ i.client = some client ∧
    winReadIpcHandle ch.environment = some chan ∧ ch.handles.get chan = some client

end Iris.Spec
