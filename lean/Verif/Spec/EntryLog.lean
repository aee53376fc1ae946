import Verif.Model.EntryLog
/-!
# Vocabulary of C121
-/
namespace Iris.Spec

/-- The system let a file be opened. -/
def opened (w : WriteOs) : Bool := match w.open with | .ok _ => true | .error _ => false

/-- The capability to drop capabilities from the bounding set is held. -/
def canDrop (c : Caps) : Bool := c.permitted.getLsbD 8

/-- The steps that can be refused without preventing the start, in order: was it refused (after it was tried), the
line of the source where this is found out, and what is said then. Maps are written if there is something to write. -/
def steps (os : EntryOs) (en enCap : Nat → BitVec 32) (p : EntryParams) (caps : Caps) : List (Bool × Nat × Str) :=
  let errno (n : Nat) : Str := c!" failed with errno " ++ displayI32 (en n) ++ c!"\n"
  let code (n : Nat) : Str := c!" failed with code " ++ displayI32 (enCap n)
  let c := os.caps
  [ (!opened os.setgroups, 50, c!"open(/proc/self/setgroups)" ++ errno 50),
    (opened os.setgroups && !os.setgroups.written, 54, c!"write(/proc/self/setgroups, deny)" ++ errno 54),
    (p.uidMap ≠ [] && !opened os.uidMap, 70, c!"open(/proc/self/uid_map)" ++ errno 70),
    (p.uidMap ≠ [] && opened os.uidMap && !os.uidMap.written, 75, c!"write(/proc/self/uid_map)" ++ errno 75),
    (p.gidMap ≠ [] && !opened os.gidMap, 86, c!"open(/proc/self/gid_map)" ++ errno 86),
    (p.gidMap ≠ [] && opened os.gidMap && !os.gidMap.written, 91, c!"write(/proc/self/gid_map)" ++ errno 91),
    (!os.unshareIpc, 102, c!"unshare(CLONE_NEWIPC)" ++ errno 102),
    (!os.unshareNet, 108, c!"unshare(CLONE_NEWNET)" ++ errno 108),
    (!os.unshareUts, 114, c!"unshare(CLONE_NEWUTS)" ++ errno 114),
    (os.unshareUts && !os.setHostname, 121, c!"sethostname([115, 97, 110, 100, 98, 111, 120, 0])" ++ errno 121),
    (!os.unshareCgroup, 132, c!"unshare(CLONE_NEWCGROUP)" ++ errno 132),
    (!os.unshareMount, 139, c!"unshare(CLONE_NEWNS)" ++ errno 139),
    (os.unshareMount && !os.mountProc, 151, c!"mount(/proc)" ++ errno 151),
    (!c.getProc, 52, c!"cap_get_proc()" ++ code 52),
    (c.getProc && !c.getFlag, 66, c!"cap_get_flag(CAP_SETPCAP)" ++ code 66),
    (c.getProc && c.getFlag && canDrop caps && !c.setFlag,
      79, c!"cap_set_flag(CAP_EFFECTIVE, CAP_SETPCAP, CAP_SET)" ++ code 79),
    (c.getProc && c.getFlag && canDrop caps && c.setFlag && !c.raise, 86, c!"cap_set_proc(enabled CAP_SETPCAP)" ++ code 86),
    (c.getProc && !c.clear, 106, c!"cap_clear()" ++ code 106),
    (c.getProc && c.clear && !c.lower, 110, c!"cap_set_proc(cleared state)" ++ code 110) ]

/-- The line and the message of a log entry. -/
def _root_.Iris.EntryLine.said (l : EntryLine) : Nat × Str := (l.line, l.msg)

/-- The whole text of a message. -/
def wholeText (l : EntryLine) : Bytes :=
  utf8 ((if l.fatal then c!"Error" else c!"Warning") ++ c!" in clone() entrypoint at line " ++ dec l.line ++ c!": "
    ++ l.msg ++ c!"\n")

/-- C121 in full: a worker which gives up says why on the standard error of the broker. -/
def SaysWhy : Prop :=
  ∀ (os : EntryOs) (en enCap : Nat → BitVec 32) (p : EntryParams) (t : FdTable) (caps : Caps) (e : FdEntry),
    t.get 2 = some e → p.allowed ≠ [] → cloneEntrypoint os p t caps = .gaveUp →
    ∃ l ∈ entryLog os en enCap p t caps, l.fatal = true ∧ l.sink = some e.file

/-- What can be said about a standard stream that cannot be set up. -/
def AboutStream (l : EntryLine) : Prop := ∃ rest, l.msg = c!"dup() " ++ rest ∨ l.msg = c!"open(/dev/null) " ++ rest

/-- A descriptor that the worker is not to have. -/
def Unwanted (p : EntryParams) (fd : Nat) : Prop := 2 < fd ∧ fd ∉ p.allowed ∧ fd ≠ p.errnoPipe

/-- A true reason to give up, with the line of the source where it is found out and what is said. `t` is the table of
descriptors the worker begins with. Missing are all reasons that never occur: streams which get another number than
theirs, and names of descriptors which are no numbers. -/
inductive Reason (os : EntryOs) (en : Nat → BitVec 32) (p : EntryParams) (t : FdTable) : Nat × Str → Prop
  | prctl (h : os.noNewPrivs = false) :
    Reason os en p t (41, c!"prctl(PR_SET_NO_NEW_PRIVS) failed with errno " ++ displayI32 (en 41) ++ c!"\n")
  | openFds {e : Nat} (h : os.openFds = .error e) :
    Reason os en p t (168, c!"open(/proc/self/fd/) failed with errno " ++ displayI32 (en 168) ++ c!"\n")
  | fdopendir (h : os.fdopendir = false) :
    Reason os en p t (172, c!"fdopendir(/proc/self/fd/) failed with errno " ++ displayI32 (en 172) ++ c!"\n")
  | readdir (h : os.readdirFails ≠ none) :
    Reason os en p t (179, c!"readdir(/proc/self/fd/) failed with errno " ++ displayI32 (en 179) ++ c!"\n")
  | close {fd : Nat} (h : t.get fd ≠ none) (hu : Unwanted p fd) (hc : os.close fd = false) :
    Reason os en p t (218, c!"closing inherited file descriptor " ++ dec fd ++ c!" failed with errno "
      ++ displayI32 (en 218) ++ c!"\n")
  | dup {num fd : Nat} (hs : (num, some fd) ∈ [(0, p.stdin), (1, p.stdout), (2, p.stderr)])
      (h : os.dup num = false ∨ fd = num ∨ t.get fd = none ∨ Unwanted p fd) :
    Reason os en p t (272, c!"dup() failed with errno " ++ displayI32 (en 272) ++ c!"\n")
  | null {num e : Nat} (hs : (num, none) ∈ [(0, p.stdin), (1, p.stdout), (2, p.stderr)]) (h : os.openNull num = .error e) :
    Reason os en p t (286, c!"open(/dev/null) failed with errno " ++ displayI32 (en 286) ++ c!"\n")

end Iris.Spec
