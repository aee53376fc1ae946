import Verif.Model.Children
/-!
# What is said about the processes of a Linux broker
-/
namespace Iris.Spec

/-- The process with this number is a child of the broker which runs, or has ended and was not waited for. -/
def IsChild (k : Kids) (pid : Nat) : Prop := ∃ x ∈ k.list, x.pid = pid

/-- It is a child which runs a program. -/
def RunsProgram (k : Kids) (pid : Nat) : Prop := ∃ x ∈ k.list, x.pid = pid ∧ x.program = true ∧ x.ended = none

/-- The system gives no new process the number of one that is still there. Numbers are then unique. -/
def FreshNumbers : Kids → List KidEvent → Prop
  | _, [] => True
  | k, e :: l =>
    (∀ c ch, e = .create c → c.run.child = some ch → ¬ IsChild k ch.pid) ∧ FreshNumbers (k.step e) l

/-- The program waits like for any child: without __WALL (0x40000000) and __WCLONE (0x80000000). -/
def WaitsAsUsual (l : List KidEvent) : Prop :=
  ∀ which flags, .wait which flags ∈ l → flags.getLsbD 30 = false ∧ flags.getLsbD 31 = false

/-- None of the calls to `waitpid` said that this process has ended. -/
def NotCollected (pid : Nat) : Kids → List KidEvent → Prop
  | _, [] => True
  | k, e :: l =>
    (∀ which flags, e = .wait which flags → ∀ st, (k.wait which flags).1 ≠ .child pid st) ∧
    NotCollected pid (k.step e) l

/-- A creation that fails leaves no process behind: when the call has returned, the broker has the children it had. -/
def NothingLeft : Prop :=
  ∀ (k : Kids) (c : NewCall) (e : BrokerError), (∀ ch, c.run.child = some ch → ¬ IsChild k ch.pid) →
    c.run.result = .error e → ∀ pid, IsChild (k.step (.create c)) pid → IsChild k pid

/-- The numbers of the processes created by these calls which executed no program. -/
def neverStarted : List KidEvent → List Nat
  | .create c :: l =>
    match c.run.child with
    | some ⟨pid, _, .execFailed _ _⟩ => pid :: neverStarted l
    | some ⟨pid, _, .gaveUp⟩ => pid :: neverStarted l
    | _ => neverStarted l
  | _ :: l => neverStarted l
  | [] => []

end Iris.Spec
