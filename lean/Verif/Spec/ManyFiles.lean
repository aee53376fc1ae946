import Verif.Model.ManyFiles
import Verif.Spec.Files
import Verif.Spec.WholeBroker
/-!
# What the workers of a broker may have done to files
-/
namespace Iris.Spec

/-- All that was done for worker `j`, in order. -/
def doneFor (j : Nat) (es : List FilesEvent) : List Action :=
  es.filterMap fun e => match e with
    | .did k a _ _ _ => if k = j then some a else none
    | .wrote _ _ _ => none

/-- These events are what the threads of this broker process have done. -/
def EventsOf (w : WholeBroker) (es : List FilesEvent) : Prop :=
  ∀ j, doneFor j es = match w.threads j with | some th => th.trace | none => []

/-- Each worker that is served was created with the rules `h j`. -/
def RulesAre (h : Nat → List Call) (w : WholeBroker) (ls : List BrokerEvent) : Prop :=
  ∀ j th, w.threads j = some th → ∃ c caps os before, .made j c (Policy.nothingAllowed.calls (h j)) caps os before ∈ ls

/-- Files were changed by worker `j`, or by what was done for it. -/
def ChangeBy (j : Nat) (e : FilesEvent) (before after : FileTree) : Prop :=
  (∃ a extra, e = .did j a extra before after) ∨ e = .wrote j before after

/-- A file a worker may have: named by a path its rules allow, for reading if it can be read from, for writing if it can be
written to. -/
def FileAllowed (h : List Call) (fs : FileTree) (i : Nat) (flags : BitVec 32) : Prop :=
  ∃ cs, Named fs cs i ∧ (ReadAllowed h cs ∨ WriteAllowed h cs) ∧ (KernelReadable flags → ReadAllowed h cs) ∧
    (KernelWritable flags → WriteAllowed h cs)

end Iris.Spec
