import Verif.Model.WinLaunch
/-!
# Several threads of the broker create workers at once, on Windows

Models broker/src/worker.rs:18-85 with ipc/src/windows/channel.rs:34-122 and broker/src/windows/process.rs:173-534 again, one
system call at a time, on what the threads of the broker share: its handles, the pipes, the number of the next
AppContainer profile, the profiles. `Worker::new` may be called from any thread, so that between any two system
calls of one call others can happen. The pieces (`createNamedPipe`, `openPipe`, `winAllow`, `trySet`, `childHandles`, ...)
are those of Model/WinPipe.lean, Model/WinProcess.lean and Model/WinLaunch.lean; C132 proves that a call which
is not interrupted is the `winWorkerNew` of that file. What it does to the permissions of DLLs is left out, as there.
-/
namespace Iris

/-- broker/src/worker.rs:19-32: the handles of the two ends of the channel. -/
structure WEnds where
  mine : BitVec 64
  theirs : BitVec 64
deriving DecidableEq

/-- What `OSSandboxedProcess::new` works with: the ends of the channel, the policy and configuration (clones made by the call,
worker.rs:34 and 52), the command line. -/
structure WJob where
  ends : WEnds
  policy : Policy
  config : ProcessConfig
  cmdline : Bytes

/-- What is still to be dropped: a handle, or the profile of a process. -/
inductive WLeft
  | handle (h : BitVec 64)
  | profile (id : Nat)

/-- Where a call of `Worker::new` is. `k` counts the iterations of the loop the call is in. -/
inductive WPhase
  /-- about to call `CreateNamedPipeA`, after this number was tried (channel.rs:37-47) -/
  | naming (k : Nat) (id : BitVec 32)
  /-- about to call `CreateFileA` (channel.rs:72) -/
  | opening (k : Nat) (name : Bytes) (mine : BitVec 64)
  /-- about to call `ConnectNamedPipe`, or waiting in it (channel.rs:92) -/
  | connecting (k : Nat) (e : WEnds)
  /-- about to call `SetNamedPipeHandleState` (channel.rs:108) -/
  | moding (k : Nat) (e : WEnds)
  /-- about to call `SetHandleInformation` on the worker's end (worker.rs:33) -/
  | marking (e : WEnds)
  /-- about to call `GetHandleInformation` on the next handle to be inherited (worker.rs:35-45) -/
  | checking (e : WEnds) (p : Policy) (left : List Nat)
  /-- about to call `GetSystemWindowsDirectoryA` (process.rs:233) -/
  | locating (j : WJob)
  /-- about to create the list of attributes (process.rs:295) -/
  | listing (j : WJob) (k : Nat) (f : WinFlags)
  /-- about to take the number of the next profile (process.rs:305) -/
  | numbering (j : WJob) (k : Nat) (f : WinFlags)
  /-- about to call `CreateAppContainerProfile` -/
  | profiling (j : WJob) (k : Nat) (f : WinFlags) (id : Nat)
  /-- there is a profile of this name: about to call `DeleteAppContainerProfile`, -/
  | deleting (j : WJob) (k : Nat) (f : WinFlags) (id : Nat)
  /-- then `CreateAppContainerProfile` again -/
  | recreating (j : WJob) (k : Nat) (f : WinFlags) (id : Nat)
  /-- about to call `CreateProcessA` (process.rs:476) -/
  | creating (j : WJob) (k : Nat) (f : WinFlags) (attributes : List ProcAttr) (profile : Option Nat)
  /-- about to call `GetProcessId` (process.rs:504) -/
  | identifying (e : WEnds) (k : Nat) (profile : Option Nat)
  /-- about to call `OpenProcess` (worker.rs:56) -/
  | attaching (e : WEnds) (q : WinProcess)
  /-- about to close the worker's end of the channel (worker.rs:79) -/
  | handing (e : WEnds) (q : WinProcess) (remote : BitVec 64)
  /-- about to create the thread (broker/src/windows/ipc_loop.rs:15) -/
  | spawning (mine : BitVec 64) (q : WinProcess) (remote : BitVec 64)
  /-- about to drop what is left, then to return an error -/
  | failing (err : Option BrokerError) (left : List WLeft)
  /-- the error is `none` if it carries the code of a failed system call -/
  | failed (err : Option BrokerError)
  | panicked
  /-- a worker has been created; the pipe and the handle to send handles to it belong to the thread serving it -/
  | served (q : WinProcess) (mine remote : BitVec 64)

/-- A call: its arguments, what the system decides, where it is, the process it has created. -/
structure WCreation where
  config : ProcessConfig
  policy : Policy
  os : LaunchOs
  phase : WPhase
  child : Option WinChild

/-- Drop everything in `left`, then return `err`. -/
def WPhase.fail (err : Option BrokerError) : List WLeft → WPhase
  | [] => .failed err
  | l => .failing err l

/-- Returning an error while both ends of the channel are open. -/
def WPhase.failEnds (err : Option BrokerError) (e : WEnds) : WPhase :=
  .fail err [.handle e.theirs, .handle e.mine]

/-- broker/src/windows/process.rs:156-171: what dropping the process does, in this order. -/
def dropsOf (os : LaunchOs) (q : WinProcess) : List WLeft :=
  .handle os.hProcess :: (if os.supported then q.profile.toList.map .profile else [])

/-- broker/src/worker.rs:46-53, then broker/src/windows/process.rs:174-227: no system call that can fail. -/
def winAfterChecks (c : ProcessConfig) (e : WEnds) (p : Policy) : WPhase :=
  match c.setEnv (ipcHandleVar e.theirs.toNat) with
  | (.error err, _) => .failEnds (some err) e
  | (.ok (), c) =>
    match winCommandLine c.exe c.argv with
    | none => .failEnds (some .missingCommandLine) e
    | some cmdline => .locating ⟨e, p, c, cmdline⟩

/-- broker/src/windows/process.rs:386-454: the list of handles, the other attributes. They are set in memory of this thread. -/
def winAfterCaps (j : WJob) (k : Nat) (f : WinFlags) (r : WinRound) (attributes : List ProcAttr) (profile : Option Nat) :
    WPhase :=
  match trySet f.filterHandles r (.handleList (handlesToInherit (j.policy.inheritedHandles.map (BitVec.ofNat 64))))
      attributes with
  | none => .listing j (k + 1) { f with filterHandles := false }
  | some attributes =>
    match trySet f.blockChildren r (.childProcessPolicy 1) attributes with
    | none => .listing j (k + 1) { f with blockChildren := false }
    | some attributes =>
      match trySet f.mitigations r (.mitigationPolicy mitigationValue) attributes with
      | none => .listing j (k + 1) { f with mitigations := false }
      | some attributes => .creating j k f attributes profile

/-- broker/src/windows/process.rs:347-385: the profile is there. -/
def winAfterProfile (j : WJob) (k : Nat) (f : WinFlags) (r : WinRound) (id : Nat) : WPhase :=
  match trySet true r (.securityCapabilities id) [] with
  | none => .listing j (k + 1) { f with appContainer := false }
  | some attributes =>
    match trySet f.lessPrivileged r (.allApplicationPackagesPolicy 1) attributes with
    | none => .listing j (k + 1) { f with lessPrivileged := false }
    | some attributes => winAfterCaps j k f r attributes (some id)

/-- The flags at the head of the loop, broker/src/windows/process.rs:282-284. -/
def WinFlags.head (f : WinFlags) : WinFlags := if f.appContainer then f else { f with lessPrivileged := false }

/-- broker/src/windows/process.rs:285-294. -/
def WinFlags.slots (f : WinFlags) : Nat :=
  [f.appContainer, f.lessPrivileged, f.filterHandles, f.blockChildren, f.mitigations].countP id

/-- A call of `CreateProcessA` is recorded. -/
def WinWorld.record (w : WinWorld) (f : WinFlags) (attributes : List ProcAttr) (ok : Bool) : WinWorld :=
  { w with start := { w.start with calls := w.start.calls ++ [⟨f.slots, attributes, ok⟩] } }

/-- The process created, broker/src/windows/process.rs:455-488. -/
def WinWorld.newChild (w : WinWorld) (os : LaunchOs) (j : WJob) (attributes : List ProcAttr) : WinChild :=
  ⟨w.pw.next, childHandles w attributes, envBlock (mergeEnv os.sys j.config.envp), j.cmdline,
    [j.config.stdin, j.config.stdout, j.config.stderr].map fun h => (h.map (BitVec.ofNat 64)).getD INVALID_HANDLE_VALUE,
    attributes⟩

/-- What a successful `CreateProcessA` does. -/
def WinWorld.addChild (w : WinWorld) (hProcess : BitVec 64) (ch : WinChild) : WinWorld :=
  { w with
    pw := { w.pw with next := w.pw.next + 1, handles := (hProcess, w.pw.next) :: w.pw.handles }
    children := w.children ++ [ch] }

def WinWorld.addProfile (w : WinWorld) (id : Nat) : WinWorld :=
  { w with start := { w.start with profiles := w.start.profiles ++ [id] } }

def WinWorld.deleteProfile (w : WinWorld) (id : Nat) : WinWorld :=
  { w with start := { w.start with profiles := w.start.profiles.filter (· ≠ id) } }

/-- Dropping one thing. -/
def WinWorld.dropLeft (w : WinWorld) : WLeft → WinWorld
  | .handle h => w.close h
  | .profile id => w.deleteProfile id

def WCreation.at (x : WCreation) (ph : WPhase) : WCreation := { x with phase := ph }

/-- One system call of `Worker::new`. A value of `hProcess` that is not free stands for a failure of `CreateProcessA`. -/
def WCreation.go (w : WinWorld) (x : WCreation) : WinWorld × WCreation :=
  match x.phase with
  | .naming k id =>
    match pipeName x.os.pid (id + 1) with
    | none => (w, x.at .panicked)
    | some name =>
      match createNamedPipe w.pw name (x.os.pipes k).create with
      | (.error e, pw) => ({ w with pw := pw }, x.at (if e = 5 then .naming (k + 1) (id + 1) else .failed none))
      | (.ok h, pw) => ({ w with pw := pw }, x.at (.opening k name h))
  | .opening k name mine =>
    match openPipe w.pw name (x.os.pipes k).open_ with
    | (.error _, pw) => ({ w with pw := pw }, x.at (.fail none [.handle mine]))
    | (.ok h, pw) => ({ w with pw := pw }, x.at (.connecting k ⟨mine, h⟩))
  | .connecting k e =>
    if w.pw.connected e.mine then (w, x.at (.moding k e))
    else match (x.os.pipes k).connect with
      | some _ => (w, x.at (.failEnds none e))
      | none => (w, x)
  | .moding k e =>
    match (x.os.pipes k).setMode with
    | some _ => (w, x.at (.failEnds none e))
    | none => (w, x.at (.marking e))
  | .marking e =>
    if x.os.setInheritable then
      ({ w with inheritable := e.theirs :: w.inheritable },
       x.at (.checking e x.policy (e.theirs.toNat :: [x.config.stdin, x.config.stdout, x.config.stderr].filterMap id)))
    else (w, x.at (.failEnds none e))
  | .checking e p [] => (w, x.at (winAfterChecks x.config e p))
  | .checking e p (raw :: left) =>
    match winAllow w p raw with
    | .error err => (w, x.at (.failEnds (some err) e))
    | .ok p => (w, x.at (.checking e p left))
  | .locating j =>
    if x.os.windowsDirectory then (w, x.at (.listing j 0 ⟨true, true, true, true, true⟩))
    else (w, x.at (.failEnds none j.ends))
  | .listing j k f =>
    if (x.os.rounds k).listOk then
      if f.appContainer then
        if x.os.supported then (w, x.at (.numbering j k f.head))
        else (w, x.at (.listing j (k + 1) { f.head with appContainer := false }))
      else (w, x.at (winAfterCaps j k f.head (x.os.rounds k) [] none))
    else (w, x.at (.failEnds none j.ends))
  | .numbering j k f =>
    ({ w with start := { w.start with nextId := w.start.nextId + 1 } }, x.at (.profiling j k f w.start.nextId))
  | .profiling j k f id =>
    if (x.os.rounds k).profile1 = HRESULT_ALREADY_EXISTS then (w, x.at (.deleting j k f id))
    else if (x.os.rounds k).profile1 = 0 then
      (w.addProfile id, x.at (winAfterProfile j k f (x.os.rounds k) id))
    else (w, x.at (.listing j (k + 1) { f with appContainer := false }))
  | .deleting j k f id => (w.deleteProfile id, x.at (.recreating j k f id))
  | .recreating j k f id =>
    if (x.os.rounds k).profile2 = 0 then
      (w.addProfile id, x.at (winAfterProfile j k f (x.os.rounds k) id))
    else (w, x.at (.listing j (k + 1) { f with appContainer := false }))
  | .creating j k f attributes profile =>
    if (x.os.rounds k).createOk && w.pw.handles.free x.os.hProcess then
      ((w.record f attributes true).addChild x.os.hProcess (w.newChild x.os j attributes),
       { x with phase := .identifying j.ends k profile, child := some (w.newChild x.os j attributes) })
    else if f.mitigations then
      (w.record f attributes false, x.at (.listing j (k + 1) { f with mitigations := false }))
    else (w.record f attributes false, x.at (.failEnds none j.ends))
  | .identifying e k profile =>
    if (x.os.rounds k).pid = 0 then (w, x.at (.failEnds none e))
    else (w, x.at (.attaching e ⟨(x.os.rounds k).pid, profile⟩))
  | .attaching e q =>
    match w.openProcess x.os with
    | none => (w, x.at (.fail none (dropsOf x.os q ++ [.handle e.theirs, .handle e.mine])))
    | some (h, w) => (w, x.at (.handing e q h))
  | .handing e q remote => (w.close e.theirs, x.at (.spawning e.mine q remote))
  | .spawning mine q remote =>
    if x.os.spawn then (w, x.at (.served q mine remote))
    else (w, x.at (.fail none (.handle mine :: .handle remote :: dropsOf x.os q)))
  | .failing err [] => (w, x.at (.failed err))
  | .failing err (l :: left) => (w.dropLeft l, x.at (.fail err left))
  | .failed _ => (w, x)
  | .panicked => (w, x)
  | .served _ _ _ => (w, x)

/-- Whether the call is over. -/
def WPhase.over : WPhase → Bool
  | .failed _ | .panicked | .served _ _ _ => true
  | _ => false

/-- The handles among what is left to be dropped. -/
def leftHandles (l : List WLeft) : List (BitVec 64) :=
  l.filterMap fun
    | .handle h => some h
    | .profile _ => none

/-- The handles a call in progress has opened, not closed yet, and will still use. -/
def WCreation.owned (x : WCreation) : List (BitVec 64) :=
  match x.phase with
  | .naming _ _ => []
  | .opening _ _ mine => [mine]
  | .connecting _ e | .moding _ e | .marking e | .checking e _ _ => [e.theirs, e.mine]
  | .locating j | .listing j _ _ | .numbering j _ _ | .profiling j _ _ _ | .deleting j _ _ _ | .recreating j _ _ _
  | .creating j _ _ _ _ => [j.ends.theirs, j.ends.mine]
  | .identifying e _ _ | .attaching e _ => [x.os.hProcess, e.theirs, e.mine]
  | .handing e _ remote => [remote, x.os.hProcess, e.theirs, e.mine]
  | .spawning mine _ remote => [mine, remote, x.os.hProcess]
  | .failing _ left => leftHandles left
  | .failed _ | .panicked | .served _ _ _ => []

/-- The broker process: what its threads share, and the calls made so far. -/
structure WinCreators where
  world : WinWorld
  calls : Nat → Option WCreation

def WinCreators.put (w : WinCreators) (j : Nat) (x : WinWorld × WCreation) : WinCreators :=
  ⟨x.1, fun k => if k = j then some x.2 else w.calls k⟩

/-- A new call. -/
def WCreation.make (c : ProcessConfig) (p : Policy) (os : LaunchOs) : WCreation := ⟨c, p, os, .naming 0 0, none⟩

/-- What is remembered of an execution: a call was made with these arguments, `before` being the state the threads share; or a
call made a system call, with the state before and after. -/
inductive WinCreateEvent
  | made (j : Nat) (c : ProcessConfig) (p : Policy) (os : LaunchOs) (before : WinWorld)
  | step (j : Nat) (before after : WinWorld)

/-- The same handle: it refers to the same object, and is inheritable in both states or in none. -/
def SameHandle (w w' : WinWorld) (h : BitVec 64) : Prop :=
  w'.pw.handles.get h = w.pw.handles.get h ∧ (h ∈ w'.inheritable ↔ h ∈ w.inheritable)

/-- What the other threads of the broker and other processes may do between two system calls. They leave alone the handles
`mine h` that belong to calls in progress and the handles `borrowed h` lent to them, make no other handles to the objects
the former refer to or to the other ends of their pipes, and leave alone these pipes and their names if they are theirs alone (an attack on the name of a pipe is the
subject of C100 and C101). Objects are not numbered twice, and neither are profiles. -/
structure WinOther (mine borrowed : BitVec 64 → Prop) (w w' : WinWorld) : Prop where
  keys : (w'.pw.handles.map (·.1)).Nodup
  inheritable : ∀ h ∈ w'.inheritable, w'.pw.handles.get h ≠ none
  next : w.pw.next ≤ w'.pw.next
  objects : ∀ h o, w'.pw.handles.get h = some o → o < w'.pw.next
  servers : ∀ i ∈ w'.pw.pipes, i.server < w'.pw.next
  single : (w'.pw.pipes.map (·.server)).Nodup
  ids : w.start.nextId ≤ w'.start.nextId
  kept : ∀ h, mine h ∨ borrowed h → SameHandle w w' h
  own : ∀ h, mine h → ∀ k, w'.pw.handles.get k = w.pw.handles.get h → w.pw.handles.get k = w.pw.handles.get h
  clients : ∀ h, mine h → ∀ i ∈ w.pw.pipes, w.pw.handles.get h = some i.server → ∀ o, i.client = some o →
    ∀ k, w'.pw.handles.get k = some o → w.pw.handles.get k = some o
  pipes : ∀ h, mine h → ∀ i ∈ w.pw.pipes, w.pw.handles.get h = some i.server →
    (∀ i' ∈ w.pw.pipes, i'.name = i.name ∨ i'.server = i.server → i' = i) →
    ∀ i', i'.name = i.name ∨ i'.server = i.server → (i' ∈ w'.pw.pipes ↔ i' ∈ w.pw.pipes)

/-- An execution: calls of `Worker::new` are made, their system calls happen in any order, and between them anything else
(`WinOther`). A configuration and a policy borrow the handles they refer to, which are therefore open and do not belong
to a call. -/
inductive WinCreatorsExec (borrowed : Policy → ProcessConfig → BitVec 64 → Prop) (w : WinCreators) :
    List WinCreateEvent → WinCreators → Prop
  | start : WinCreatorsExec borrowed w [] w
  | call (ls : List WinCreateEvent) (w1 : WinCreators) (j : Nat) (c : ProcessConfig) (p : Policy) (os : LaunchOs)
    (he : WinCreatorsExec borrowed w ls w1) (hj : w1.calls j = none)
    (hb : ∀ h, borrowed p c h → w1.world.pw.handles.get h ≠ none ∧ ∀ k x, w1.calls k = some x → h ∉ x.owned) :
    WinCreatorsExec borrowed w (ls ++ [.made j c p os w1.world]) (w1.put j (w1.world, .make c p os))
  | go (ls : List WinCreateEvent) (w1 : WinCreators) (j : Nat) (x : WCreation)
    (he : WinCreatorsExec borrowed w ls w1) (hj : w1.calls j = some x) (hx : x.phase.over = false) :
    WinCreatorsExec borrowed w (ls ++ [.step j w1.world (x.go w1.world).1]) (w1.put j (x.go w1.world))
  | other (ls : List WinCreateEvent) (w1 : WinCreators) (w2 : WinWorld) (he : WinCreatorsExec borrowed w ls w1)
    (ho : WinOther (fun h => ∃ j x, w1.calls j = some x ∧ h ∈ x.owned)
      (fun h => ∃ j x, w1.calls j = some x ∧ x.phase.over = false ∧ borrowed x.policy x.config h) w1.world w2) :
    WinCreatorsExec borrowed w ls { w1 with world := w2 }

end Iris
