import Verif.Model.Jail
import Verif.Model.Lockdown
import Verif.Spec.Seccomp
import Verif.Spec.Files
/-!
# Locked down workers
-/
namespace Iris.Spec
open Iris.Seccomp

/-- Which system call a number is on one of the architectures. -/
def CallNamed (numbers : Arch → String → Option (BitVec 32)) (d : Bpf.Data) (name : String) : Prop :=
  ∃ arch, IsCall numbers d arch name d.args

/-- A worker with the rules `h`, whose number is `pid` for the broker, has locked itself down (worker/src/linux/lockdown.rs:51-181)
and now runs under the filter `prog`: the broker computed it, sent it, and the worker loaded what it received. -/
def WorkerLocked [Target] (numbers : Arch → String → Option (BitVec 32)) (lib : Lib) (pid : BitVec 64) (h : List Call)
    (prog : List Bpf.Insn) : Prop :=
  Faithful numbers lib ∧ ∃ abi t os L scope bytes data,
    computeSeccompFilter lib pid false = .ok bytes ∧
    sendResponse (.initialization (Policy.nothingAllowed.calls h).runtime bytes) = some data ∧
    os.incoming = .datagram ⟨data, []⟩ ∧ lowerFinal abi t os = some L ∧ L.filter = some (prog, scope)

end Iris.Spec
