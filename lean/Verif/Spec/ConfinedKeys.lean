import Verif.Model.ConfinedKeys
import Verif.Spec.WinWorker
import Verif.Spec.WinPolicy
import Verif.Spec.Sizes
/-!
# The same Windows program without a sandbox, and the registry

The kernel is that of Model/WinKeys.lean, called with what the program itself passes.
-/
namespace Iris.Spec

/-- What a program asks for, and whether it wants to know if the key is new. -/
structure KeyAsk where
  path : Str
  cls : Option Str
  access : BitVec 32
  options : BitVec 32
  out : Bool

/-- The call asks for this: it has all pointers it needs, an absolute path, and no title index. -/
structure KeyRequests (a : CreateKeyArgs) (q : KeyAsk) : Prop where
  handle : a.keyHandle = true
  path : ∃ name, a.objectAttributes = some ⟨0#64, some name⟩ ∧ Names name (utf16 q.path)
  title : a.titleIndex = 0#32
  cls : (a.cls = none ∧ q.cls = none) ∨ ∃ s c, a.cls = some s ∧ q.cls = some c ∧ Names s (utf16 c)
  access : a.access = q.access
  options : a.options = q.options
  out : a.outDisposition = q.out

/-- Without a sandbox: what the program sees, and the keys afterwards. New keys are known from their number; 1 is `REG_CREATED_NEW_KEY`, 2 is
`REG_OPENED_EXISTING_KEY`. -/
def bareKeyTurn (k : KeyKernel) (t : KeyTree) (c : KeyTurn × KeyAsk) : KeyOutcome × KeyTree :=
  match ntCreateKey k (c.1.others t) c.2.access (utf16 c.2.path) c.2.options c.1.refuse with
  | (.ok (i, _), t') =>
    (.opened i (if c.2.out then some (if List.length (c.1.others t) ≤ i then 1#32 else 2#32) else none), t')
  | (.error e, t') => (.failed e, t')

def bareKeyRun (k : KeyKernel) : KeyTree → List (KeyTurn × KeyAsk) → List KeyOutcome × KeyTree
  | t, [] => ([], t)
  | t, c :: cs =>
    ((bareKeyTurn k t c).1 :: (bareKeyRun k (bareKeyTurn k t c).2 cs).1, (bareKeyRun k (bareKeyTurn k t c).2 cs).2)

/-- There is no such key yet: the call makes one. -/
def MakesKey (k : KeyKernel) (t : KeyTree) (q : KeyAsk) : Prop :=
  ∃ i place, (ntCreateKey k t q.access (utf16 q.path) q.options none).1 = .ok (i, place) ∧ List.length t ≤ i

/-- The rules let the program read the key if it asks to read it, and write it if it asks to write it or makes it, in a supported way. The path
is one a program would use, and is not too long for a message. `t` are the keys there are. -/
def KeyCallAllowed (sid : Str) (h : List WinCall) (k : KeyKernel) (t : KeyTree) (q : KeyAsk) : Prop :=
  SupportedKeyAccess q.access ∧ SupportedKeyOptions q.options ∧ (RegReadAllowed sid h q.path ∨ RegWriteAllowed sid h q.path) ∧
  (AsksKeyRead q.access → RegReadAllowed sid h q.path) ∧ (AsksKeyWrite q.access false ∨ MakesKey k t q → RegWriteAllowed sid h q.path) ∧
  ¬ HasEmptyName q.path ∧ keyMessageSize q.access (utf8 q.path).length (q.cls.map fun c => (utf8 c).length) q.options ≤ 65536

/-- The call asks for this, the broker has a handle value free and can answer, and errors of the kernel are errors. `t` are the handles of the
broker. -/
structure KeyTurnServed (t : HTable) (c : KeyTurn × KeyAsk) : Prop where
  says : KeyRequests c.1.call c.2
  writes : c.1.writeOk = true
  gives : ∃ v, c.1.dup = some v ∧ v ≠ 0#64 ∧ ∀ e ∈ c.1.table, e.1 ≠ v
  opens : c.1.handle ≠ 0#64 ∧ ∀ e ∈ t, e.1 ≠ c.1.handle
  status : ∀ e, c.1.refuse = some e → e.toInt < 0

/-- In the run of a program which is not confined, all calls are allowed by the rules, and are as `P` says. -/
def KeysWithin (P : KeyAsk → Prop) (sid : Str) (h : List WinCall) (k : KeyKernel) : KeyTree → List (KeyTurn × KeyAsk) → Prop
  | _, [] => True
  | t, c :: cs => KeyCallAllowed sid h k (c.1.others t) c.2 ∧ P c.2 ∧ KeysWithin P sid h k (bareKeyTurn k t c).2 cs

/-- A program which, not confined, makes only calls its rules allow (and `P`), sees the same when it is confined, and does the same to keys. -/
def KeysInvisible (P : Str → List WinCall → KeyAsk → Prop) : Prop :=
  ∀ (debug : Bool) (os : WinOs) (h : List WinCall) (k : KeyKernel) (w : ConfinedKeys) (cs : List (KeyTurn × KeyAsk)),
    w.broker.running = true → (∀ c ∈ cs, KeyTurnServed w.broker.tables.broker c) → KeysWithin (P os.sid h) os.sid h k w.tree cs →
    let x := w.run debug (Policy.nothingAllowed.winCalls os h) k (cs.map Prod.fst)
    let y := bareKeyRun k w.tree cs
    x.1 = y.1 ∧ x.2.tree = y.2

/-- Calls for which this holds: the key may be written to, and may also be read if the mask has rights which neither read nor write it. -/
def KeyPlain (sid : Str) (h : List WinCall) (q : KeyAsk) : Prop :=
  RegWriteAllowed sid h q.path ∧ (AsksKeyOther q.access → RegReadAllowed sid h q.path)

end Iris.Spec
