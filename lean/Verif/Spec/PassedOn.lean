import Verif.Spec.WholeBroker
/-! # Specification vocabulary for the descriptors other programs get -/
namespace Iris.Spec

/-- A process with these descriptors which executes a program gives it `fd`: it is open, and the flag
`FD_CLOEXEC` (1) is not set. -/
def PassedOn (t : FdTable) (fd : Nat) : Prop := ∃ e, t.get fd = some e ∧ e.flags &&& 1#32 = 0#32

/-- This system call opened `fd`. -/
def Opens (before after : FdTable) (fd : Nat) (e : FdEntry) : Prop := before.get fd = none ∧ after.get fd = some e

/-- C150, full statement: at any time, no descriptor opened for a worker is passed on to a program the broker's process
executes. -/
def NothingPassedOn [Target] (abi : Abi) (ok : FdTable → Prop) : Prop :=
  ∀ (w w' : WholeBroker) (ls : List BrokerEvent), NothingYet w → WholeExec abi ok Declared w ls w' →
    ∀ j fd, HeldFor j ls fd → ¬ PassedOn w'.table fd

end Iris.Spec
