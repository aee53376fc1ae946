import Verif.Model.Confined
import Verif.Spec.Files
import Verif.Spec.Worker
import Verif.Spec.Sizes
/-!
# The same program without a sandbox
-/
namespace Iris.Spec

/-- The files, and the working directory of a program which is not confined. -/
structure Bare where
  tree : FileTree
  cwd : Nat

/-- path_resolution(7): from the root directory or from the working directory. -/
def pathTo (w : Bare) (follow : Bool) (path : Str) : Walk :=
  walkLinks w.tree follow 40 (if path.head? = some '/' then 0 else w.cwd) (components path)

/-- The file a path leads to, links followed. -/
def lookup (w : Bare) (path : Str) : Except Nat Nat :=
  match pathTo w true path with
  | .failed e => .error e
  | .missing _ _ => .error 2
  | .found i =>
    match w.tree[i]? with
    | some (.dir _ _) => .ok i
    | some (.file _) => if path.getLast? = some '/' then .error 20 else .ok i
    | some (.link _) => .error 40
    | none => .error 5

/-- open(2): the file, and all files afterwards. -/
def nativeOpen (w : Bare) (path : Str) (flags : BitVec 32) : Except Nat Nat × FileTree :=
  if Has flags 0x200000#32 then
    match lookup w path with
    | .error e => (.error e, w.tree)
    | .ok i =>
      match w.tree[i]? with
      | some (.dir _ _) => (.ok i, w.tree)
      | _ => if Has flags 0x10000#32 then (.error 20, w.tree) else (.ok i, w.tree)
  else
    match pathTo w (!(Has flags 0x40#32 && Has flags 0x80#32)) path with
    | .failed e => (.error e, w.tree)
    | .missing d c =>
      if Has flags 0x40#32 then
        if path.getLast? = some '/' ∨ Has flags 0x10000#32 then (.error 21, w.tree)
        else (.ok (List.length w.tree), w.tree.create d c)
      else (.error 2, w.tree)
    | .found i =>
      if Has flags 0x40#32 ∧ Has flags 0x80#32 then (.error 17, w.tree)
      else
        match w.tree[i]? with
        | some (.dir _ _) =>
          if Has flags 0x40#32 ∨ Has flags 0x200#32 ∨ Has flags 1#32 ∨ Has flags 2#32 then (.error 21, w.tree) else (.ok i, w.tree)
        | some (.file _) =>
          if path.getLast? = some '/' ∨ Has flags 0x10000#32 then (.error 20, w.tree)
          else if Has flags 0x200#32 then (.ok i, w.tree.set i (.file [])) else (.ok i, w.tree)
        | some (.link _) => (.error 40, w.tree)
        | none => (.error 5, w.tree)

def seen : Except Nat Nat → Outcome
  | .ok i => .file i
  | .error e => .error e

/-- What the kernel does for a program which is not confined. -/
def Bare.call (w : Bare) (refuse : Option Nat) (k : Kind) (path : Str) : Outcome × Bare :=
  match refuse with
  | some e => (.error e, w)
  | none =>
    if path = [] then (.error 2, w)
    else match k with
      | .open flags => (seen (nativeOpen w path flags).1, { w with tree := (nativeOpen w path flags).2 })
      | .stat => (seen (lookup w path), w)
      | .access _ =>
        match lookup w path with
        | .ok _ => (.done, w)
        | .error e => (.error e, w)
      | .chdir =>
        match lookup w path with
        | .error e => (.error e, w)
        | .ok i =>
          match w.tree[i]? with
          | some (.dir _ _) => (.done, { w with cwd := i })
          | _ => (.error 20, w)

/-- What other processes do, then the call. -/
def Bare.turn (w : Bare) (c : PathTurn × Kind × Str) : Outcome × Bare :=
  Bare.call { w with tree := c.1.others w.tree } c.1.refuse c.2.1 c.2.2

def Bare.run : Bare → List (PathTurn × Kind × Str) → List Outcome × Bare
  | w, [] => ([], w)
  | w, c :: cs => ((w.turn c).1 :: ((w.turn c).2.run cs).1, ((w.turn c).2.run cs).2)

/-- `s` is the path of the directory `d`. -/
def NamesDirectory (fs : FileTree) (d : Nat) (s : Str) : Prop :=
  ∃ cs, Named fs cs d ∧ (∀ c ∈ cs, GoodComponent c ∧ '\x00' ∉ c) ∧ (∃ entries parent, fs[d]? = some (.dir entries parent)) ∧
    s = if cs = [] then c!"/" else render cs

/-- getcwd(2) gives the path of the working directory, or fails. -/
def Getcwd (getcwd : FileTree → Nat → Option Str) : Prop :=
  ∀ fs d s, getcwd fs d = some s → NamesDirectory fs d s

/-- How a call opens the file its path names. -/
def flagsOf : Kind → BitVec 32
  | .open flags => flags
  | .access mode => mode
  | .stat => 0x200000#32
  | .chdir => 0x200000#32

/-- The rules allow what the path means in the working directory `cwd`, if this is known. The request is not too long for a message. -/
def CallAllowed [Target] (h : List Call) (cwd : Option Str) (k : Kind) (path : Str) : Prop :=
  ∃ name, (path.head? = some '/' ∨ cwd = some name) ∧ OpenAllowed h (absolute name path) (flagsOf k) ∧
    messageSize (utf8 (absolute name path)).length (flagsOf k) ≤ 65536

/-- The registers and the memory of the program say what the call is, nothing fails to be sent or received, and the errors of the system are
between 1 and 4095. -/
structure TurnServed (c : PathTurn × Kind × Str) : Prop where
  says : PathCall c.1.mem c.1.regs c.2.1 c.2.2
  brokerSends : c.1.os.sendError = none
  workerSends : c.1.io.sendError = none
  room : 2 ≤ c.1.io.canInstall
  small : c.1.table.length < 2 ^ 31
  errno : ∀ e, c.1.refuse = some e → 1 ≤ e ∧ e ≤ 4095

/-- In the run of a program which is not confined, all calls are allowed by the rules, and are as `P` says. -/
def Within [Target] (P : Kind → Str → Prop) (h : List Call) (getcwd : FileTree → Nat → Option Str) : Bare → List (PathTurn × Kind × Str) → Prop
  | _, [] => True
  | w, c :: cs => CallAllowed h (getcwd (c.1.others w.tree) w.cwd) c.2.1 c.2.2 ∧ P c.2.1 c.2.2 ∧ Within P h getcwd (w.turn c).2 cs

/-- A program which, not confined, makes only calls its rules allow (and `P`), sees the same when it is confined, and does the same to files and to
its working directory. -/
def Invisible [Target] (abi : Abi) (P : Kind → Str → Prop) : Prop :=
  ∀ (h : List Call) (audit : Bool) (replace : Bytes → Str) (getcwd : FileTree → Nat → Option Str) (w : Confined) (cs : List (PathTurn × Kind × Str)),
    Getcwd getcwd → w.broker.status = .running → w.broker.table.length < 2 ^ 31 → (∀ c ∈ cs, TurnServed c) →
    Within P h getcwd ⟨w.tree, w.cwd⟩ cs →
    let x := w.run abi (Policy.nothingAllowed.calls h) audit replace getcwd (cs.map Prod.fst)
    let y := Bare.run ⟨w.tree, w.cwd⟩ cs
    x.1 = y.1 ∧ x.2.tree = y.2.tree ∧ x.2.cwd = y.2.cwd

/-- Calls for which this holds: `open` and `openat` of any path but the empty one, `stat` and `chdir` of absolute paths. -/
def Plain : Kind → Str → Prop
  | .open _, path => path ≠ []
  | .stat, path => path.head? = some '/'
  | .chdir, path => path.head? = some '/'
  | .access _, _ => False

end Iris.Spec
