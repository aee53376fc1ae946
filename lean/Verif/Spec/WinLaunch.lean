import Verif.Model.WinLaunch
/-!
# What the creation of a Windows worker is supposed to give
-/
namespace Iris.Spec

/-- A state the broker can be in: different handles have different values, only handles are marked inheritable, the objects
that exist have numbers below `next`. -/
structure WorldOk (w : WinWorld) : Prop where
  keys : (w.pw.handles.map (·.1)).Nodup
  inheritable : ∀ h ∈ w.inheritable, ∃ e ∈ w.pw.handles, e.1 = h
  objects : ∀ e ∈ w.pw.handles, e.2 < w.pw.next
  others : ∀ child ∈ w.children, ∀ e ∈ child.handles, e.2 < w.pw.next

/-- The handle `pipe` of the broker and the handle `value` of this process are the two ends of one pipe; and no one else has a
handle to the process's end, so the broker can tell when the process is gone. -/
def Attached (w : WinWorld) (child : WinChild) (pipe value : BitVec 64) : Prop :=
  ∃ i ∈ w.pw.pipes, w.pw.handles.get pipe = some i.server ∧ ∃ c, i.client = some c ∧ child.handles.get value = some c ∧
    (∀ e ∈ w.pw.handles, e.2 ≠ c) ∧ ∀ other ∈ w.children, other ≠ child → ∀ e ∈ other.handles, e.2 ≠ c

/-- Windows takes this entry of an environment for the variable with the number of the channel: names are compared
without the case of letters. -/
def NamesChannel (entry : Bytes) : Prop :=
  (entry.take 19).map (fun b => if 97 ≤ b ∧ b ≤ 122 then b - 32 else b) = utf8 c!"SANDBOX_IPC_HANDLE="

/-- The streams a process is configured with. -/
def streams (c : ProcessConfig) : List Nat := [c.stdin, c.stdout, c.stderr].filterMap id

end Iris.Spec
