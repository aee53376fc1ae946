import Verif.Model.WinPipe
/-!
# What a channel is supposed to be on Windows
-/
namespace Iris.Spec

/-- What is written to one of two handles of the broker is read from the other: they are the two ends of one instance
of a pipe. -/
def Joined (w : PipeWorld) (a b : BitVec 64) : Prop :=
  ∃ i ∈ w.pipes, w.handles.get a = some i.server ∧ ∃ c, i.client = some c ∧ w.handles.get b = some c

/-- The names the broker with this number gives to its pipes. -/
def ownName (pid : BitVec 32) (name : Bytes) : Prop := utf8 (c!"\\\\.\\pipe\\ipc-" ++ dec pid.toNat ++ c!"-") <+: name

/-- Another process does not touch pipes of these names, except its own that exist already. -/
def LeavesAlone (pid : BitVec 32) : OtherAct → Prop
  | .create name => ¬ ownName pid name
  | .connect name => ¬ ownName pid name
  | .vanish _ => True

/-- All that others do during an iteration. -/
def othersActs (r : PipeRound) : List OtherAct := r.before1 ++ r.before2 ++ r.before3 ++ r.waiting ++ r.before4

end Iris.Spec
