import Verif.Spec.Creators
import Verif.Spec.Concurrent
import Verif.Spec.Broker
import Verif.Model.WholeBroker
/-! # Specification vocabulary for a whole broker process -/
namespace Iris.Spec

/-- At first there are no calls and no threads. -/
structure NothingYet (w : WholeBroker) : Prop where
  calls : ∀ j, w.calls j = none
  threads : ∀ j, w.threads j = none
  nodup : (w.table.map Prod.fst).Nodup

/-- The descriptors opened for worker `j`, by the call creating it or by the thread serving it, and
not closed, going only by what each of their system calls did to the descriptor table. -/
def HeldFor (j : Nat) (ls : List BrokerEvent) : Nat → Prop :=
  ls.foldl (fun h l => match l with
    | .step k before after | .recv k _ _ before after | .serve k before after =>
      if k = j then fun fd => after.get fd ≠ none ∧ (h fd ∨ before.get fd = none) else h
    | .made _ _ _ _ _ _ => h) fun _ => False

/-- What the thread serving worker `j` received, in order. -/
def receivedBy (j : Nat) (ls : List BrokerEvent) : List (Incoming × OsChoice) :=
  ls.filterMap fun l => match l with
    | .recv k inc os _ _ => if k = j then some (inc, os) else none
    | _ => none

/-- No message comes with more than one file. -/
def FewFiles (inc : Incoming) : Prop := ∀ d, inc = .datagram d → d.files.length ≤ 1

/-- The table is changed by a step made for worker `j`. -/
def StepOf (j : Nat) (l : BrokerEvent) (before after : FdTable) : Prop :=
  l = .step j before after ∨ (∃ inc os, l = .recv j inc os before after) ∨ l = .serve j before after

/-- Two workers, of two processes, given the same policy, that have sent the same and have been answered,
have been done the same, whatever else each process does. -/
def WholeNoInterference [Target] (abi : Abi) (ok : FdTable → Prop) : Prop :=
  ∀ (w w' v v' : WholeBroker) (ls ms : List BrokerEvent) (i j : Nat) (c d : ProcessConfig) (p : Policy)
    (caps caps' : Caps) (os os' : NewOs) (b b' : FdTable) (th th' : Loop),
    NothingYet w → NothingYet v → WholeExec abi ok Declared w ls w' → WholeExec abi ok Declared v ms v' →
    .made i c p caps os b ∈ ls → .made j d p caps' os' b' ∈ ms → w'.threads i = some th → v'.threads j = some th' →
    receivedBy i ls = receivedBy j ms → AtRest th → AtRest th' → th.trace = th'.trace

end Iris.Spec
