import Verif.Model.Concurrent
/-!
# Workers served together and alone
-/
namespace Iris.Spec

/-- The threads have just been started (or do not exist): none did anything, and those which
exist have different open channels. -/
structure Fresh (w : Loops) : Prop where
  phase : ∀ j, (w.threads j).phase = .idle ∨ ∃ why, (w.threads j).phase = .gone why
  trace : ∀ j, (w.threads j).trace = []
  sockets : ∀ j, (w.threads j).sockets = []
  chan : ∀ j, (w.threads j).phase = .idle → (w.table.get (w.threads j).chan).isSome
  apart : ∀ j k, (w.threads j).phase = .idle → (w.threads k).phase = .idle → j ≠ k →
    (w.threads j).chan ≠ (w.threads k).chan

/-- The thread is between two iterations of its loop, or has ended. -/
def AtRest (th : Loop) : Prop := th.phase = .idle ∨ ∃ why, th.phase = .gone why

/-- The process never has 2^31 descriptors (Linux does not allow it). -/
def Bounded (t : FdTable) : Prop := t.length < 2 ^ 31

/-- Descriptor 0 is open, on file `f`. -/
def StdinIs (f : Nat) (t : FdTable) : Prop := (t.get 0).map (·.file) = some f

/-- The same worker served alone by a broker with this descriptor table. -/
def alone [Target] (abi : Abi) (t : FdTable) (th : Loop) (ins : List (Incoming × OsChoice)) : Broker :=
  Broker.run abi th.policy ⟨t, th.chan, .running, []⟩ ins

/-- `th` became `th'` having received `ins`, and did what it does alone: it is at most one message
late, and when it is not in the middle of an iteration it did exactly the same and ended in the
same way. -/
structure SameAsAlone [Target] (abi : Abi) (t : FdTable) (th : Loop) (ins : List (Incoming × OsChoice))
    (th' : Loop) : Prop where
  late : (alone abi t th ins.dropLast).trace <+: th'.trace
  early : th'.trace <+: (alone abi t th ins).trace
  same : AtRest th' → th'.trace = (alone abi t th ins).trace
  running : th'.phase = .idle → (alone abi t th ins).status = .running
  ended : ∀ why, th'.phase = .gone why → (alone abi t th ins).status = why

/-- C55 in full: what is done for a worker depends on its policy and messages only. Worker `i` of
one broker and worker `j` of another, whatever other workers each has and however they are
interleaved, get the same if they have the same policy and send the same. -/
def NoInterference [Target] (abi : Abi) (ok : FdTable → Prop) : Prop :=
  ∀ (w w' v v' : Loops) (ls ms : List LoopStep) (i j : Nat), Fresh w → Fresh v →
    LoopsExec abi ok w ls w' → LoopsExec abi ok v ms v' →
    (w.threads i).phase = .idle → (v.threads j).phase = .idle →
    (w.threads i).policy = (v.threads j).policy → inputsOf i ls = inputsOf j ms →
    AtRest (w'.threads i) → AtRest (v'.threads j) →
    (w'.threads i).trace = (v'.threads j).trace

end Iris.Spec
