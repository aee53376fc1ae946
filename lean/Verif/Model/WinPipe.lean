import Verif.Model.StackBuffer
import Verif.Model.WinBroker
/-!
# Creation of a channel on Windows

Models `IpcChannel::new` of ipc/src/windows/channel.rs, with a model of named pipes. Other processes may create
and connect to pipes at any time.
-/
namespace Iris

/-- An instance of a named pipe: its name, the object at the end of who created it, and the one at the other end if
someone has connected to it. -/
structure PipeInstance where
  name : Bytes
  server : Nat
  client : Option Nat
deriving DecidableEq, Repr

/-- All instances, the numbers of objects that are not in use (this one and all above), the handles of the broker. -/
structure PipeWorld where
  pipes : List PipeInstance
  next : Nat
  handles : HTable
deriving DecidableEq, Repr

/-- `CloseHandle`: when the end of the creator is closed, the instance is gone. Objects with other handles to them
are not modelled: no handle to an instance is ever duplicated. -/
def PipeWorld.close (w : PipeWorld) (h : BitVec 64) : PipeWorld :=
  { w with pipes := w.pipes.filter (fun i => w.handles.get h ≠ some i.server), handles := w.handles.close h }

/-- What another process can do: create an instance, unless there are already two (the limit the broker sets when
it creates the first); connect to an instance of this name nobody is connected to; close its end. -/
inductive OtherAct
  | create (name : Bytes)
  | connect (name : Bytes)
  | vanish (server : Nat)
deriving DecidableEq, Repr

/-- Connects to the first free instance of a name which `p` selects. -/
def connectTo (p : PipeInstance → Bool) (object : Nat) : List PipeInstance → List PipeInstance
  | [] => []
  | i :: l => if p i && i.client.isNone then { i with client := some object } :: l else i :: connectTo p object l

/-- One such act. An end the broker has a handle to cannot be closed by others. -/
def PipeWorld.other (w : PipeWorld) : OtherAct → PipeWorld
  | .create name =>
    if w.pipes.countP (·.name = name) < 2 then ⟨w.pipes ++ [⟨name, w.next, none⟩], w.next + 1, w.handles⟩ else w
  | .connect name => ⟨connectTo (·.name = name) w.next w.pipes, w.next + 1, w.handles⟩
  | .vanish server =>
    if w.handles.any (·.2 = server) then w else { w with pipes := w.pipes.filter (·.server ≠ server) }

def PipeWorld.others (w : PipeWorld) (l : List OtherAct) : PipeWorld := l.foldl PipeWorld.other w

/-- What the system and the other processes do in one iteration: before each call, what others do; then its result.
For `CreateNamedPipeA` and `CreateFileA` a code or the value of the handle. -/
structure PipeRound where
  before1 : List OtherAct
  create : Except (BitVec 32) (BitVec 64)
  before2 : List OtherAct
  /-- the instance is chosen by its creator's end, if it is free -/
  open_ : Except (BitVec 32) (BitVec 64 × Nat)
  before3 : List OtherAct
  connect : Option (BitVec 32)
  /-- what others do while the broker waits for a connection -/
  waiting : List OtherAct
  before4 : List OtherAct
  setMode : Option (BitVec 32)

def ERROR_PIPE_BUSY : BitVec 32 := 231
def ERROR_TOO_MANY_OPEN_FILES : BitVec 32 := 4

/-- `CreateNamedPipeA`, ipc/src/windows/channel.rs:47-56: `FILE_FLAG_FIRST_PIPE_INSTANCE` fails with
`ERROR_ACCESS_DENIED` (5) if there is an instance. A value that is not free stands for a failure. -/
def createNamedPipe (w : PipeWorld) (name : Bytes) (res : Except (BitVec 32) (BitVec 64)) :
    Except (BitVec 32) (BitVec 64) × PipeWorld :=
  if w.pipes.any (·.name = name) then (.error 5, w)
  else match res with
    | .error e => (.error e, w)
    | .ok h =>
      if w.handles.free h then
        (.ok h, ⟨w.pipes ++ [⟨name, w.next, none⟩], w.next + 1, (h, w.next) :: w.handles⟩)
      else (.error ERROR_TOO_MANY_OPEN_FILES, w)

/-- `CreateFileA`, ipc/src/windows/channel.rs:72-81: it connects to any free instance of the name. -/
def openPipe (w : PipeWorld) (name : Bytes) (res : Except (BitVec 32) (BitVec 64 × Nat)) :
    Except (BitVec 32) (BitVec 64) × PipeWorld :=
  match res with
  | .error e => (.error e, w)
  | .ok (h, server) =>
    if w.pipes.any (fun i => i.name = name && i.server = server && i.client.isNone) then
      if w.handles.free h then
        (.ok h, ⟨connectTo (fun i => i.name = name && i.server = server) w.next w.pipes, w.next + 1,
          (h, w.next) :: w.handles⟩)
      else (.error ERROR_TOO_MANY_OPEN_FILES, w)
    else (.error ERROR_PIPE_BUSY, w)

/-- Someone is connected to the instance whose creator's end this handle refers to. -/
def PipeWorld.connected (w : PipeWorld) (h : BitVec 64) : Bool :=
  w.pipes.any fun i => w.handles.get h = some i.server && i.client.isSome

/-- How the creation of a channel ends: with the handles of both ends, with an error, or never (`ConnectNamedPipe` waits
for ever). `again` is the end of an iteration. -/
inductive PipeOutcome
  | channel (broker worker : BitVec 64)
  | error (code : BitVec 32)
  | hangs
  | again
deriving DecidableEq, Repr

/-- `i32` as `{}` displays it. -/
def displayI32 (n : BitVec 32) : Str := if n.msb then '-' :: dec (-n).toNat else dec n.toNat

/-- ipc/src/windows/channel.rs:38-46: the name, up to the NUL. `none` is a panic. -/
def pipeName (pid : BitVec 32) (id : BitVec 32) : Option Bytes :=
  ((StackBuffer.default 100).writeAll
      [utf8 c!"\\\\.\\pipe\\ipc-", utf8 (dec pid.toNat), utf8 c!"-", utf8 (displayI32 id), [0]]).bind fun b =>
    b.asBytes.map fun bs => bs.takeWhile (· ≠ 0)

/-- ipc/src/windows/channel.rs:90-119, with both handles: returning drops them. -/
def finishChannel (w : PipeWorld) (h1 h2 : BitVec 64) (r : PipeRound) : PipeOutcome × PipeWorld :=
  let w := w.others r.before3
  match r.connect, w.connected h1 with
  | some e, false => (.error e, (w.close h2).close h1)
  | none, false =>
    let w := w.others r.waiting
    if w.connected h1 then
      let w := w.others r.before4
      match r.setMode with
      | some e => (.error e, (w.close h2).close h1)
      | none => (.channel h1 h2, w)
    else (.hangs, w)
  | _, true =>
    let w := w.others r.before4
    match r.setMode with
    | some e => (.error e, (w.close h2).close h1)
    | none => (.channel h1 h2, w)

/-- One iteration, ipc/src/windows/channel.rs:37-121. A connected pipe makes `ConnectNamedPipe` fail with
`ERROR_PIPE_CONNECTED`, which is expected (lines 92-100). -/
def channelAttempt (w : PipeWorld) (name : Bytes) (r : PipeRound) : PipeOutcome × PipeWorld :=
  match createNamedPipe (w.others r.before1) name r.create with
  | (.error e, w) => (if e = 5 then .again else .error e, w)
  | (.ok h1, w) =>
    match openPipe (w.others r.before2) name r.open_ with
    | (.error e, w) => (.error e, w.close h1)
    | (.ok h2, w) => finishChannel w h1 h2 r

/-- ipc/src/windows/channel.rs:34-122 `new`, for at most `n` iterations; `id` is the last number tried. Numbers are 32 bits
wide and wrap (in a debug build that is a panic instead). `none` is a panic. -/
def channelNew (pid : BitVec 32) (rounds : Nat → PipeRound) : Nat → Nat → BitVec 32 → PipeWorld →
    Option (PipeOutcome × PipeWorld)
  | 0, _, _, w => some (.again, w)
  | n + 1, k, id, w =>
    (pipeName pid (id + 1)).bind fun name =>
      match channelAttempt w name (rounds k) with
      | (.again, w) => channelNew pid rounds n (k + 1) (id + 1) w
      | end_ => some end_

end Iris
