import Verif.Spec.LinuxPolicy
import Verif.Spec.Broker
import Verif.Model.Worker
/-!
# What an intercepted system call is supposed to do

In terms of the program's view: which call it makes, which path that names, which file it
gets.
-/
namespace Iris.Spec

/-- The path that `path` means in a process whose working directory is `cwd`. -/
def absolute (cwd path : Str) : Str :=
  if path.head? = some '/' then path
  else if cwd.getLast? = some '/' then cwd ++ path
  else cwd ++ '/' :: path

/-- The rules in `h` allow opening `path` with `flags` (this is C02). -/
def OpenAllowed [Target] (h : List Call) (path : Str) (flags : BitVec 32) : Prop :=
  Supported flags ∧ ∃ cs, Denotes path cs ∧ (ReadAllowed h cs ∨ WriteAllowed h cs) ∧
    (AsksRead flags → ReadAllowed h cs) ∧ (AsksWrite flags → WriteAllowed h cs)

/-- The calls that take a path. -/
inductive Kind
  | open (flags : BitVec 32)
  | access (mode : BitVec 32)
  | stat
  | chdir
deriving DecidableEq

/-- The registers and the memory of the program say: this call, with this path (which
is a C string: it contains no NUL). -/
inductive PathCall (mem : Memory) (r : Regs) : Kind → Str → Prop
  | open (path : Str) (h1 : r.nr = 2) (h2 : mem r.args.a0 = some (utf8 path)) (h3 : '\x00' ∉ path) :
    PathCall mem r (.open (r.args.a1.setWidth 32)) path
  | openat (path : Str) (h1 : r.nr = 257) (h2 : mem r.args.a1 = some (utf8 path))
    (h3 : '\x00' ∉ path) (h4 : r.args.a0.setWidth 32 = -100#32 ∨ path.head? = some '/') :
    PathCall mem r (.open (r.args.a2.setWidth 32)) path
  | access (path : Str) (h1 : r.nr = 21) (h2 : mem r.args.a0 = some (utf8 path)) (h3 : '\x00' ∉ path) :
    PathCall mem r (.access (r.args.a1.setWidth 32)) path
  | stat (path : Str) (h1 : r.nr = 4) (h2 : mem r.args.a0 = some (utf8 path)) (h3 : '\x00' ∉ path) :
    PathCall mem r .stat path
  | chdir (path : Str) (h1 : r.nr = 80) (h2 : mem r.args.a0 = some (utf8 path)) (h3 : '\x00' ∉ path) :
    PathCall mem r .chdir path

/-- The broker serves, no send fails, the worker is not out of descriptors (nor has it or the
broker 2^31 of them), errors of the system are between 1 and 4095, and the working directory
is known. -/
structure Serving (b : Broker) (os : OsChoice) (t : FdTable) (io : WorkerIo) (cwd : Str) : Prop where
  running : b.status = .running
  brokerTable : b.table.length < 2 ^ 31
  workerTable : t.length < 2 ^ 31
  brokerSends : os.sendError = none
  workerSends : io.sendError = none
  room : 2 ≤ io.canInstall
  errno : ∀ e, os.openResult = .error e → 1 ≤ e ∧ e ≤ 4095
  knownCwd : io.cwd = some cwd
  cwdNoNul : '\x00' ∉ cwd

end Iris.Spec
