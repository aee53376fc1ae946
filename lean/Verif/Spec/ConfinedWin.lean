import Verif.Model.ConfinedWin
import Verif.Spec.WinWorker
import Verif.Spec.WinPolicy
import Verif.Spec.Sizes
/-!
# The same Windows program without a sandbox

The kernel is that of Model/WinFiles.lean, called with what the program itself passes.
-/
namespace Iris.Spec

/-- What a program asks for. -/
structure FileAsk where
  path : Str
  access : BitVec 32
  attributes : BitVec 32
  share : BitVec 32
  disposition : BitVec 32
  options : BitVec 32
  /-- The size to reserve for a new file. -/
  allocation : BitVec 64

/-- The call asks for this: it has all pointers it needs, an absolute path, and no extended attributes. 1 is `FILE_OPEN`. -/
inductive Requests : NtFileCall → FileAsk → Prop
  | create (a : CreateFileArgs) (oa : ObjectAttributes) (name : NtString) (path : Str) (h1 : a.fileHandle = true)
    (h2 : a.ioStatusBlock = true) (h3 : a.objectAttributes = some oa) (h4 : oa.root = 0) (h5 : a.eaLength = 0) (h6 : oa.name = some name)
    (h7 : Names name (utf16 path)) : Requests (.create a) ⟨path, a.access, a.attributes, a.share, a.disposition, a.options, a.allocation.getD 0⟩
  | open (a : OpenFileArgs) (oa : ObjectAttributes) (name : NtString) (path : Str) (h1 : a.fileHandle = true)
    (h2 : a.ioStatusBlock = true) (h3 : a.objectAttributes = some oa) (h4 : oa.root = 0) (h6 : oa.name = some name)
    (h7 : Names name (utf16 path)) : Requests (.open a) ⟨path, a.access, 0#32, a.share, 1#32, a.options, 0#64⟩

/-- Without a sandbox: what the program sees, and the files afterwards. -/
def bareNtTurn (k : NtKernel) (fs : NtTree) (c : NtTurn × FileAsk) : NtOutcome × NtTree :=
  match ntCreateFile k (c.1.others fs) (utf16 c.2.path) c.2.disposition c.2.options c.1.refuse with
  | (.ok (i, _), fs) => (.opened i c.1.info, fs)
  | (.error e, fs) => (.failed e, fs)

def bareNtRun (k : NtKernel) : NtTree → List (NtTurn × FileAsk) → List NtOutcome × NtTree
  | fs, [] => ([], fs)
  | fs, c :: cs => ((bareNtTurn k fs c).1 :: (bareNtRun k (bareNtTurn k fs c).2 cs).1, (bareNtRun k (bareNtTurn k fs c).2 cs).2)

/-- The rules give the program all it asks for, on this path, in a supported way. The path is one a program would use, and is not too long
for a message. -/
def NtCallAllowed (full : Str → Str) (h : List WinCall) (q : FileAsk) : Prop :=
  SupportedFileAccess q.access ∧ SupportedAttributes q.attributes ∧ q.disposition.toNat ≤ 5 ∧ q.path.head? = some '\\' ∧
  (∃ right, Given full h right q.path) ∧ (∀ right, Asks q.access q.share q.disposition q.options [] right → Given full h right q.path) ∧
  ¬ HasEmptyName q.path ∧
  fileMessageSize q.access (utf8 q.path).length q.allocation q.attributes q.share q.disposition q.options ≤ 65536

/-- The call asks for this, the broker has a handle value free and can answer, and errors of the kernel are errors. `t` are the handles of the
broker. -/
structure NtTurnServed (t : HTable) (c : NtTurn × FileAsk) : Prop where
  says : Requests c.1.call c.2
  writes : c.1.writeOk = true
  gives : ∃ v, c.1.dup = some v ∧ v ≠ 0#64 ∧ ∀ e ∈ c.1.table, e.1 ≠ v
  opens : c.1.handle ≠ 0#64 ∧ ∀ e ∈ t, e.1 ≠ c.1.handle
  status : ∀ e, c.1.refuse = some e → e.toInt < 0

/-- In the run of a program which is not confined, all calls are allowed by the rules, and are as `P` says for the files there are. -/
def NtWithin (P : NtTree → FileAsk → Prop) (full : Str → Str) (h : List WinCall) (k : NtKernel) : NtTree → List (NtTurn × FileAsk) → Prop
  | _, [] => True
  | fs, c :: cs => NtCallAllowed full h c.2 ∧ P (c.1.others fs) c.2 ∧ NtWithin P full h k (bareNtTurn k fs c).2 cs

/-- A program which, not confined, makes only calls its rules allow (and `P`), sees the same when it is confined, and does the same to files. -/
def NtInvisible (P : NtKernel → NtTree → FileAsk → Prop) : Prop :=
  ∀ (debug : Bool) (os : WinOs) (full : Str → Str) (h : List WinCall) (k : NtKernel) (w : ConfinedWin) (cs : List (NtTurn × FileAsk)),
    FullNames os full → w.broker.running = true → (∀ c ∈ cs, NtTurnServed w.broker.tables.broker c) → NtWithin (P k) full h k w.tree cs →
    let x := w.run debug (Policy.nothingAllowed.winCalls os h) k (cs.map Prod.fst)
    let y := bareNtRun k w.tree cs
    x.1 = y.1 ∧ x.2.tree = y.2

/-- The path leads to a reparse point. -/
def LeadsToLink (k : NtKernel) (fs : NtTree) (path : Str) : Prop :=
  ∃ cs slash i place target, ntNames path = some (cs, slash) ∧ ntWalkLinks k fs false 63 cs = .found i place ∧ fs[i]? = some (.link target)

/-- Calls for which this holds: reparse points are not to be followed (0x200000), or the path does not lead to one; the attributes of new
files are the normal ones (0x80). -/
def NtPlain (k : NtKernel) (fs : NtTree) (q : FileAsk) : Prop :=
  (q.attributes = 0#32 ∨ q.attributes = 0x80#32) ∧
  (Has q.options 0x200000 ∨ ¬ Has q.options 0x2000 ∧ ¬ LeadsToLink k fs q.path)

end Iris.Spec
