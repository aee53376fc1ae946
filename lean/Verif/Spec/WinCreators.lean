import Verif.Spec.Process
import Verif.Spec.WinLaunch
import Verif.Model.WinCreators
/-! # Specification vocabulary for Windows workers created by several threads at once -/
namespace Iris.Spec

/-- The handles call `j` has opened and not closed, going only by what each of its system calls did to the broker's
handles. -/
def HoldsHandle (j : Nat) (ls : List WinCreateEvent) : BitVec 64 → Prop :=
  ls.foldl (fun held l => match l with
    | .step k before after =>
      if k = j then fun h => after.pw.handles.get h ≠ none ∧ (held h ∨ before.pw.handles.get h = none) else held
    | .made _ _ _ _ _ => held) fun _ => False

/-- At first there are no calls; different handles have different values, only handles are inheritable, objects that exist
have numbers below `next`, and no two pipes have the same. -/
structure NoWinCalls (w : WinCreators) : Prop where
  calls : ∀ j, w.calls j = none
  keys : (w.world.pw.handles.map (·.1)).Nodup
  inheritable : ∀ h ∈ w.world.inheritable, w.world.pw.handles.get h ≠ none
  objects : ∀ h o, w.world.pw.handles.get h = some o → o < w.world.pw.next
  servers : ∀ i ∈ w.world.pw.pipes, i.server < w.world.pw.next
  single : (w.world.pw.pipes.map (·.server)).Nodup

/-- The caller asked for the worker to have this handle. -/
def DeclaredHandle (p : Policy) (c : ProcessConfig) (h : BitVec 64) : Prop :=
  ∃ raw, Declared p c raw ∧ BitVec.ofNat 64 raw = h

/-- What a process created by a call made with configuration `c` and policy `p` must have, `w` being the state of the broker
when the call was made: the handle its environment names, which was not one of the handles declared, and the
handles declared that are inheritable. -/
def WinStartedRight (w : WinWorld) (c : ProcessConfig) (p : Policy) (ch : WinChild) : Prop :=
  ∃ chan object, ¬ DeclaredHandle p c chan ∧ winReadIpcHandle ch.environment = some chan ∧
    ∀ h o, ch.handles.get h = some o ↔
      (h = chan ∧ o = object) ∨ (DeclaredHandle p c h ∧ h ∈ w.inheritable ∧ w.pw.handles.get h = some o)

/-- The process was created with a list of the handles it may have. -/
def HasHandleList (ch : WinChild) : Prop := ∃ l, .handleList l ∈ ch.attributes

/-- Call `j` took this number for a profile: the counter was there before one of its system calls, and had moved on
after it. -/
def TookNumber (j : Nat) (ls : List WinCreateEvent) (id : Nat) : Prop :=
  ∃ before after, .step j before after ∈ ls ∧ before.start.nextId = id ∧ id < after.start.nextId

/-- The system calls of call `j`, in number. -/
def ownCalls (j : Nat) (ls : List WinCreateEvent) : Nat :=
  ls.countP fun
    | .step k _ _ => k = j
    | .made _ _ _ _ _ => false

end Iris.Spec
