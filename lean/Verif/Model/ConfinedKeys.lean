import Verif.Model.ConfinedWin
import Verif.Model.WinKeys
/-!
# A confined Windows program, its broker and the registry

The calls of `NtCreateKey` which a program makes one after the other, each handled by worker/src/windows/lockdown.rs:655-727 and by the broker
(broker/src/windows/ipc_loop.rs:50-98, broker/src/windows/brokered_syscalls.rs:137-237), with the keys they are about (Model/WinKeys.lean).

Simplifications: those of Model/WinKeys.lean. Between two of these calls the program can do anything else to its handles, and any process can
do anything to the keys; both are arbitrary. The status of a successful call is 0.
-/
namespace Iris

/-- What a program learns from a call. -/
inductive KeyOutcome
  /-- success, with a handle of this key, and the disposition if it asked for it -/
  | opened (i : Nat) (disposition : Option (BitVec 32))
  | failed (status : BitVec 32)
  /-- anything else: the program ends, or has a handle of nothing -/
  | other
deriving DecidableEq, Repr

/-- A call: what happens to the keys before it, the handles of the program, its parameters, an error the kernel has for other reasons than what
keys exist, and what else the system decides: the value of the handle in the broker, that of its duplicate, and whether the broker can write to
the pipe. -/
structure KeyTurn where
  others : KeyTree → KeyTree
  table : HTable
  call : CreateKeyArgs
  refuse : Option (BitVec 32)
  handle : BitVec 64
  dup : Option (BitVec 64)
  writeOk : Bool

/-- The keys, and the broker. -/
structure ConfinedKeys where
  tree : KeyTree
  broker : WinBroker

/-- The call to the kernel the broker makes (broker/src/windows/brokered_syscalls.rs:182-224), if this is one. -/
def WinAction.keyCall : WinAction → Option NtCall
  | .called (.createKey access name titleIndex cls options) _ => some (.createKey access name titleIndex cls options)
  | .called (.openKey access name) _ => some (.openKey access name)
  | _ => none

/-- The disposition of a successful `NtCreateKey` (broker/src/windows/brokered_syscalls.rs:182-204): 1 is `REG_CREATED_NEW_KEY`, 2 is
`REG_OPENED_EXISTING_KEY`. -/
def keyDisposition (t : KeyTree) (i : Nat) : BitVec 32 := if i < List.length t then 2#32 else 1#32

/-- What `NtCreateKey` (broker/src/windows/brokered_syscalls.rs:182-204) returns in the broker. `t` are the keys before. -/
def KeyTurn.result (c : KeyTurn) (t : KeyTree) : Except (BitVec 32) (Nat × Option (Nat × Str)) → NtResult
  | .ok (i, _) => ⟨0#32, 0#64, keyDisposition t i, c.handle, i⟩
  | .error e => ⟨e, 0#64, 0#32, 0#64, 0⟩

/-- What the system decides during this call. -/
def KeyTurn.choice (c : KeyTurn) (t : KeyTree) (r : Except (BitVec 32) (Nat × Option (Nat × Str))) : WinChoice :=
  ⟨c.result t r, c.dup, c.writeOk⟩

/-- What the program finds when the hook returns (worker/src/windows/lockdown.rs:708-727). -/
def keyOutcomeOf (t : HTable) (h : Hooked) : KeyOutcome :=
  match h.ret with
  | .status s =>
    if s.msb then .failed s
    else (t.get (h.handle.getD 0)).elim .other fun i => .opened i h.disposition
  | _ => .other

/-- The call to the kernel the broker makes during a call, if it makes one: which one it is does not depend on how it ends. -/
def KeyTurn.asks (debug : Bool) (p : Policy) (b : WinBroker) (c : KeyTurn) : Option NtCall :=
  let os := c.choice [] (.error 0xC0000001#32)
  let b' := brokerAfter debug p b os (hookNtCreateKey c.call (winBrokered debug p b os))
  (b'.trace.drop b.trace.length).findSome? WinAction.keyCall

/-- What that call does to the keys (Model/WinKeys.lean). -/
def keyEffect (k : KeyKernel) (t : KeyTree) (refuse : Option (BitVec 32)) :
    Option NtCall → Except (BitVec 32) (Nat × Option (Nat × Str)) × KeyTree
  | some (.createKey access name _ _ options) => ntCreateKey k t access name options refuse
  | some (.openKey access name) => (ntOpenKey k t access name refuse, t)
  | _ => (.error 0xC0000001#32, t)

/-- One call, from the hook to its return. The broker's call acts on the keys. -/
def ConfinedKeys.turn (debug : Bool) (p : Policy) (k : KeyKernel) (w : ConfinedKeys) (c : KeyTurn) : KeyOutcome × ConfinedKeys :=
  let tree := c.others w.tree
  let b := { w.broker with tables := { w.broker.tables with worker := c.table } }
  let opened := keyEffect k tree c.refuse (c.asks debug p b)
  let os := c.choice tree opened.1
  let h := hookNtCreateKey c.call (winBrokered debug p b os)
  let b' := brokerAfter debug p b os h
  (keyOutcomeOf b'.tables.worker h, ⟨opened.2, b'⟩)

/-- The calls of a program, one after the other. -/
def ConfinedKeys.run (debug : Bool) (p : Policy) (k : KeyKernel) : ConfinedKeys → List KeyTurn → List KeyOutcome × ConfinedKeys
  | w, [] => ([], w)
  | w, c :: cs =>
    let x := w.turn debug p k c
    let y := x.2.run debug p k cs
    (x.1 :: y.1, y.2)

end Iris
