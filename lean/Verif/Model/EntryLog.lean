import Verif.Model.Process
import Verif.Model.StackBuffer
import Verif.Model.WinPipe
/-!
# What a worker says while it starts

Models linux-entrypoint/src/error.rs, and what linux-entrypoint/src/entry.rs and linux-entrypoint/src/capabilities.rs
log. The debug descriptor is 2 (broker/src/linux/process.rs:76). `errno` after a failure of the call logged at line `n`
is arbitrary, `en n`.
-/
namespace Iris

/-- A use of `log_fatal!` or `log_nonfatal!`: which one, its line, its message, and the file which is descriptor 2 at
that time. What `write` does is not modelled further. -/
structure EntryLine where
  fatal : Bool
  line : Nat
  msg : Str
  sink : Option Nat
deriving DecidableEq, Repr

/-- linux-entrypoint/src/error.rs:27 and 48. -/
def entryPrefix (fatal : Bool) : Str :=
  if fatal then c!"Error in clone() entrypoint at line " else c!"Warning in clone() entrypoint at line "

/-- linux-entrypoint/src/error.rs:21-60: the two writes of `log_fatal!` (21-40) and `log_nonfatal!` (42-60). How the
message is cut into pieces makes no difference (C54), so there is one. `write!` never fails here (C54). `none` is
a panic. -/
def EntryLine.text (l : EntryLine) : Option Bytes :=
  ((StackBuffer.default 200).writeAll
      [utf8 (entryPrefix l.fatal), utf8 (dec l.line), utf8 c!": ", utf8 l.msg]).bind fun buf =>
  buf.asBytes.map fun b => (if (fromUtf8 b).isSome then b else utf8 c!"unable to format error to UTF-8") ++ [10]

/-- `log_fatal!` with descriptor table `t`. -/
def fatalLine (t : FdTable) (line : Nat) (msg : Str) : EntryLine := ⟨true, line, msg, (t.get 2).map (·.file)⟩

/-- `log_nonfatal!` with descriptor table `t`. -/
def warnLine (t : FdTable) (line : Nat) (msg : Str) : EntryLine := ⟨false, line, msg, (t.get 2).map (·.file)⟩

/-- `if failed { log_nonfatal!(…) }`. -/
def warnIf (failed : Bool) (t : FdTable) (line : Nat) (msg : Str) : List EntryLine :=
  if failed then [warnLine t line msg] else []

/-- linux-entrypoint/src/entry.rs:47-62, 67-80 and 83-96: a file which cannot be opened, or not be written, in
which case it is still open. -/
def procLog (os : WriteOs) (en : Nat → BitVec 32) (t : FdTable) (openLine writeLine : Nat) (name written : Str) :
    List EntryLine :=
  match os.open with
  | .error _ => [warnLine t openLine (c!"open(" ++ name ++ c!") failed with errno " ++ displayI32 (en openLine) ++ c!"\n")]
  | .ok file =>
    warnIf (!os.written) (t.alloc ⟨file, 0#32⟩).2 writeLine
      (c!"write(" ++ written ++ c!") failed with errno " ++ displayI32 (en writeLine) ++ c!"\n")

/-- linux-entrypoint/src/entry.rs:99-153. -/
def isolateLog (os : EntryOs) (en : Nat → BitVec 32) (t : FdTable) : List EntryLine :=
  warnIf (!os.unshareIpc) t 102 (c!"unshare(CLONE_NEWIPC) failed with errno " ++ displayI32 (en 102) ++ c!"\n") ++
  warnIf (!os.unshareNet) t 108 (c!"unshare(CLONE_NEWNET) failed with errno " ++ displayI32 (en 108) ++ c!"\n") ++
  (if os.unshareUts = false then
    [warnLine t 114 (c!"unshare(CLONE_NEWUTS) failed with errno " ++ displayI32 (en 114) ++ c!"\n")]
  else warnIf (!os.setHostname) t 121
    (c!"sethostname([115, 97, 110, 100, 98, 111, 120, 0]) failed with errno " ++ displayI32 (en 121) ++ c!"\n")) ++
  warnIf (!os.unshareCgroup) t 132 (c!"unshare(CLONE_NEWCGROUP) failed with errno " ++ displayI32 (en 132) ++ c!"\n") ++
  (if os.unshareMount = false then
    [warnLine t 139 (c!"unshare(CLONE_NEWNS) failed with errno " ++ displayI32 (en 139) ++ c!"\n")]
  else warnIf (!os.mountProc) t 151 (c!"mount(/proc) failed with errno " ++ displayI32 (en 151) ++ c!"\n"))

/-- linux-entrypoint/src/capabilities.rs:56-100. -/
def boundingLog (os : CapOs) (en : Nat → BitVec 32) (c : Caps) (t : FdTable) : List EntryLine :=
  if os.getFlag = false then
    [warnLine t 66 (c!"cap_get_flag(CAP_SETPCAP) failed with code " ++ displayI32 (en 66))]
  else if c.permitted &&& CAP_SETPCAP = 0#64 then []
  else if os.setFlag = false then
    [warnLine t 79 (c!"cap_set_flag(CAP_EFFECTIVE, CAP_SETPCAP, CAP_SET) failed with code " ++ displayI32 (en 79))]
  else if os.raise = false ∨ (sysCapset c c.permitted (c.effective ||| CAP_SETPCAP) c.inheritable).isNone then
    [warnLine t 86 (c!"cap_set_proc(enabled CAP_SETPCAP) failed with code " ++ displayI32 (en 86))]
  else []

/-- linux-entrypoint/src/capabilities.rs:48-116. Giving up all capabilities is always allowed. -/
def capsLog (os : CapOs) (en : Nat → BitVec 32) (c : Caps) (t : FdTable) : List EntryLine :=
  if os.getProc = false then [warnLine t 52 (c!"cap_get_proc() failed with code " ++ displayI32 (en 52))]
  else boundingLog os en c t ++
    (if os.clear = false then [warnLine t 106 (c!"cap_clear() failed with code " ++ displayI32 (en 106))]
    else warnIf (!os.lower) t 110 (c!"cap_set_proc(cleared state) failed with code " ++ displayI32 (en 110)))

/-- linux-entrypoint/src/entry.rs:174-225, what the loop of `closeFds` logs. A name which is not text (line 189)
is not modelled: names are text. -/
def closeFdsLog (os : EntryOs) (en : Nat → BitVec 32) (p : EntryParams) (fdsFd : Nat) (fails : Option Nat) :
    List DirEntry → FdTable → List EntryLine
  | [], t =>
    if fails.isSome then
      [fatalLine t 179 (c!"readdir(/proc/self/fd/) failed with errno " ++ displayI32 (en 179) ++ c!"\n")]
    else []
  | e :: es, t =>
    if fails = some 0 then
      [fatalLine t 179 (c!"readdir(/proc/self/fd/) failed with errno " ++ displayI32 (en 179) ++ c!"\n")]
    else
      let fails := fails.map (· - 1)
      if e.isLink = false then closeFdsLog os en p fdsFd fails es t
      else match parseI32 e.name with
        | none => [fatalLine t 193 (c!"unable to parse /proc/self/fd/" ++ e.name ++ c!" entry as integer\n")]
        | some fd =>
          if keeps p fdsFd fd then closeFdsLog os en p fdsFd fails es t
          else match sysClose os t fd with
            | (false, t) =>
              [fatalLine t 218 (c!"closing inherited file descriptor " ++ displayI32 (BitVec.ofInt 32 fd)
                ++ c!" failed with errno " ++ displayI32 (en 218) ++ c!"\n")]
            | (true, t) => closeFdsLog os en p fdsFd fails es t

/-- linux-entrypoint/src/entry.rs:160-228. -/
def cleanupLog (os : EntryOs) (en : Nat → BitVec 32) (p : EntryParams) (t : FdTable) : List EntryLine :=
  match os.openFds with
  | .error _ => [fatalLine t 168 (c!"open(/proc/self/fd/) failed with errno " ++ displayI32 (en 168) ++ c!"\n")]
  | .ok file =>
    let (fdsFd, t) := t.alloc ⟨file, FD_CLOEXEC⟩
    if os.fdopendir = false then
      [fatalLine t 172 (c!"fdopendir(/proc/self/fd/) failed with errno " ++ displayI32 (en 172) ++ c!"\n")]
    else closeFdsLog os en p fdsFd os.readdirFails (procSelfFd t) t

/-- linux-entrypoint/src/entry.rs:265-295 `setup_std_file_descriptor`. -/
def setupLog (os : EntryOs) (en : Nat → BitVec 32) (num : Nat) (replaceWith : Option Nat) (t : FdTable) :
    List EntryLine :=
  let t := t.erase num
  match replaceWith with
  | some fd =>
    match t.get fd with
    | none => [fatalLine t 272 (c!"dup() failed with errno " ++ displayI32 (en 272) ++ c!"\n")]
    | some e =>
      if os.dup num = false then [fatalLine t 272 (c!"dup() failed with errno " ++ displayI32 (en 272) ++ c!"\n")]
      else
        let (res, t) := t.alloc ⟨e.file, 0#32⟩
        if res ≠ num then
          [fatalLine t 274 (c!"dup() returned file descriptor number " ++ displayI32 (BitVec.ofNat 32 res)
            ++ c!", expected " ++ dec num ++ c!"\n")]
        else []
  | none =>
    match os.openNull num with
    | .error _ => [fatalLine t 286 (c!"open(/dev/null) failed with errno " ++ displayI32 (en 286) ++ c!"\n")]
    | .ok file =>
      let (res, t) := t.alloc ⟨file, 0#32⟩
      if res ≠ num then
        [fatalLine t 288 (c!"open(/dev/null) returned file descriptor number " ++ displayI32 (BitVec.ofNat 32 res)
          ++ c!", expected " ++ dec num ++ c!"\n")]
      else []

/-- linux-entrypoint/src/entry.rs:160-239, from the cleanup of descriptors on. -/
def streamsLog (os : EntryOs) (en : Nat → BitVec 32) (p : EntryParams) (s : EntryState) : List EntryLine :=
  cleanupLog os en p s.table ++
  match cleanupFds os p s.table with
  | none => []
  | some t =>
    setupLog os en 0 p.stdin t ++
    match setupStd os 0 p.stdin { s with table := t } with
    | none => []
    | some s =>
      setupLog os en 1 p.stdout s.table ++
      match setupStd os 1 p.stdout s with
      | none => []
      | some s => setupLog os en 2 p.stderr s.table

/-- linux-entrypoint/src/entry.rs:35-157, what is logged if no_new_privs is set. `enCap` is `errno` at the lines of
capabilities.rs. -/
def prepareLog (os : EntryOs) (en enCap : Nat → BitVec 32) (p : EntryParams) (t : FdTable) (caps : Caps) :
    List EntryLine :=
  let t1 := writeFile os.setgroups t
  let t2 := if 0 < p.uidMap.length then writeFile os.uidMap t1 else t1
  let t3 := if 0 < p.gidMap.length then writeFile os.gidMap t2 else t2
  procLog os.setgroups en t 50 54 c!"/proc/self/setgroups" c!"/proc/self/setgroups, deny" ++
  (if 0 < p.uidMap.length then procLog os.uidMap en t1 70 75 c!"/proc/self/uid_map" c!"/proc/self/uid_map" else []) ++
  (if 0 < p.gidMap.length then procLog os.gidMap en t2 86 91 c!"/proc/self/gid_map" c!"/proc/self/gid_map" else []) ++
  isolateLog os en t3 ++ capsLog os.caps enCap caps t3

/-- linux-entrypoint/src/entry.rs:29-253: all that `clone_entrypoint` logs. -/
def entryLog (os : EntryOs) (en enCap : Nat → BitVec 32) (p : EntryParams) (t : FdTable) (caps : Caps) :
    List EntryLine :=
  match prepare os p t caps with
  | none =>
    [fatalLine t 41 (c!"prctl(PR_SET_NO_NEW_PRIVS) failed with errno " ++ displayI32 (en 41) ++ c!"\n")]
  | some s => prepareLog os en enCap p t caps ++ streamsLog os en p s

end Iris
