import Verif.Model.WinWorker
import Verif.Spec.WinBroker
/-!
# What a hooked call of a Windows worker is supposed to mean
-/
namespace Iris.Spec

/-- The string gives exactly these units, all of them readable. -/
def Names (s : NtString) (units : List U16) : Prop :=
  s.length.toNat / 2 = units.length ∧ units <+: s.buffer

/-- The parameters that no implementation of the call without a broker would need: what the worker answers at
once to a call to create or open a file, if anything. 0xC000000D is `STATUS_INVALID_PARAMETER`, 0xC00000BB is
`STATUS_NOT_SUPPORTED`. -/
def refusedAtOnce (pointers : Bool) (oa : Option ObjectAttributes) (unsupported : Bool) : Option (BitVec 32) :=
  match pointers, oa with
  | false, _ => some 0xC000000D#32
  | _, none => some 0xC000000D#32
  | true, some oa =>
    if oa.root ≠ 0#64 ∨ unsupported = true then some 0xC00000BB#32
    else if oa.name = none then some 0xC000000D#32
    else none

/-- The broker serves the worker, can write to the pipe and, if it opens something, can give the worker a handle
to it. -/
structure CanAnswer (b : WinBroker) (os : WinChoice) : Prop where
  running : b.running = true
  writes : os.writeOk = true
  gives : ∃ v, os.dup = some v ∧ v ≠ 0#64 ∧ ∀ e ∈ b.tables.worker, e.1 ≠ v

/-- The broker after a hooked call, if it was in state `b` before. -/
def afterCall (debug : Bool) (p : Policy) (b : WinBroker) (os : WinChoice) (h : Hooked) : WinBroker :=
  match h.sent with
  | some r => winAfter debug p b os r
  | none => b

/-- What the calling program gets and what else happens, for a request to the broker of state `b` that a hooked
call stands for. If the policy grants it, one system call is made, and the program gets the status of that call
and what else it returned; on success it gets a handle that in its process refers to the object opened. If the
policy does not grant it, no system call is made, and the program gets `STATUS_ACCESS_DENIED` (0xC0000022) and a
null handle; the handles of both processes are as before. In both cases the log callbacks are called, and the
broker goes on. `out` says what else the program gets, from the result of the system call or without one. -/
def Carried (debug : Bool) (p : Policy) (b b' : WinBroker) (asked : WinRequest) (call : NtCall)
    (h : Hooked) (out : Option NtResult → Prop) : Prop :=
  b'.running = true ∧
  ((p.winEvaluate debug asked).1 = .granted ∧
    (∃ res reply v, b'.trace = b.trace ++ (p.winEvaluate debug asked).2.map .notified ++
        [.called call res, .sent reply v] ∧
      h.ret = .status res.status ∧ out (some res) ∧
      (res.status.toInt < 0 → h.handle = some 0#64 ∧ b'.tables = b.tables) ∧
      (¬ res.status.toInt < 0 → ∃ v, v ≠ 0#64 ∧ h.handle = some v ∧
        b'.tables = { b.tables with worker := (v, res.object) :: b.tables.worker })) ∨
   (p.winEvaluate debug asked).1 ≠ .granted ∧
    (∃ reply, b'.trace = b.trace ++ (p.winEvaluate debug asked).2.map .notified ++ [.sent reply none]) ∧
      h.ret = .status 0xC0000022#32 ∧ out none ∧ h.handle = some 0#64 ∧ b'.tables = b.tables)

end Iris.Spec
