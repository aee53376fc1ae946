import Verif.Model.WinProcess
/-!
# What the creation of a Windows worker is supposed to mean
-/
namespace Iris.Spec

/-! ## Command lines

How a C program gets `argv` from its command line ("Parsing C command-line arguments" of the documentation of
Visual C++), on bytes. 32 is a space, 9 a tab, 34 a double quote, 92 a backslash. -/

def blank (b : UInt8) : Bool := b == 32 || b == 9

/-- The name of the program: quotes prevent blanks from ending it, there are no escapes. Gives the rest, too. -/
def programName (quoted : Bool) : Bytes → Bytes × Bytes
  | [] => ([], [])
  | b :: rest =>
    if b = 34 then programName (!quoted) rest
    else if blank b && !quoted then ([], rest)
    else (b :: (programName quoted rest).1, (programName quoted rest).2)

/-- The other arguments. `slashes` is how many backslashes were just read, `cur` is the argument read before them,
if one was begun. Backslashes stand for themselves, unless they precede a double quote: then each pair stands
for one, and if one is left over the double quote stands for itself; otherwise it begins or ends a quoted part;
but in a quoted part two double quotes stand for one. -/
def otherArguments (quoted : Bool) (slashes : Nat) (cur : Option Bytes) : Bytes → List Bytes
  | [] => if cur = none ∧ slashes = 0 then [] else [cur.getD [] ++ List.replicate slashes 92]
  | b :: rest =>
    if b = 92 then otherArguments quoted (slashes + 1) cur rest
    else if b = 34 then
      let cur' := cur.getD [] ++ List.replicate (slashes / 2) 92
      if slashes % 2 = 1 then otherArguments quoted 0 (some (cur' ++ [34])) rest
      else if quoted then
        match rest with
        | 34 :: rest' => otherArguments true 0 (some (cur' ++ [34])) rest'
        | rest => otherArguments false 0 (some cur') rest
      else otherArguments true 0 (some cur') rest
    else if blank b && !quoted then
      if cur = none ∧ slashes = 0 then otherArguments false 0 none rest
      else (cur.getD [] ++ List.replicate slashes 92) :: otherArguments false 0 none rest
    else otherArguments quoted 0 (some (cur.getD [] ++ List.replicate slashes 92 ++ [b])) rest

/-- `argv` of a program started with this command line. -/
def parsedArguments (line : Bytes) : List Bytes :=
  (programName false line).1 :: otherArguments false 0 none (programName false line).2

/-- Arguments that survive: not empty, without double quotes and tabs, and without a backslash at the end if there
is a space in them. -/
def PlainArgument (a : Bytes) : Prop :=
  a ≠ [] ∧ 34 ∉ a ∧ 9 ∉ a ∧ (32 ∈ a → a.getLast? ≠ some 92)

/-! ## Environment -/

/-- The variables a worker always gets, with the value it gets for those that would tell about the user. -/
def passedOn : List (Str × Option Str) :=
  [(c!"COMPUTERNAME", some c!"PC"), (c!"LOGONSERVER", some c!"\\\\PC"), (c!"USERDOMAIN", some c!"PC"),
   (c!"USERDOMAIN_ROAMINGPROFILE", some c!"PC"), (c!"USERNAME", some c!"User"),
   (c!"COMMONPROGRAMFILES", none), (c!"COMMONPROGRAMFILES(X86)", none), (c!"COMMONPROGRAMW6432", none),
   (c!"COMSPEC", none), (c!"DRIVERDATA", none), (c!"HOMEDRIVE", none), (c!"OS", none), (c!"PATHEXT", none),
   (c!"PROGRAMDATA", none), (c!"PROGRAMFILES", none), (c!"PROGRAMFILES(X86)", none), (c!"PROGRAMW6432", none),
   (c!"PUBLIC", none), (c!"SESSIONNAME", none), (c!"SYSTEMDRIVE", none), (c!"SYSTEMROOT", none), (c!"WINDIR", none),
   (c!"NUMBER_OF_PROCESSORS", none), (c!"PROCESSOR_ARCHITECTURE", none), (c!"PROCESSOR_IDENTIFIER", none),
   (c!"PROCESSOR_LEVEL", none), (c!"PROCESSOR_REVISION", none), (c!"LOCALAPPDATA", none)]

/-- The value of such a variable, if the broker's environment is `sys`. -/
def passedValue (sys : Str → Option Str) (v : Str × Option Str) : Option Str :=
  match v.2 with
  | some forced => some forced
  | none => sys v.1

/-- An entry of an environment gives a value to this variable. 61 is `=`. -/
def GivesValue (entry name : Bytes) : Prop := name ++ [61] <+: entry

/-- The strings of an environment block: each ends with NUL, an empty one ends the block. `none` if the block
ends before it. -/
def blockStrings (cur : Bytes) : Bytes → Option (List Bytes)
  | [] => none
  | b :: rest =>
    if b = 0 then if cur = [] then some [] else (blockStrings [] rest).map (cur :: ·)
    else blockStrings (cur ++ [b]) rest

/-! ## Attributes -/

/-- Kinds of attributes. -/
def attrKind : ProcAttr → Nat
  | .securityCapabilities _ => 0
  | .allApplicationPackagesPolicy _ => 1
  | .handleList _ => 2
  | .childProcessPolicy _ => 3
  | .mitigationPolicy _ => 4

/-- The list of handles names exactly the inherited ones, each once. -/
def ExactHandles (inherited listed : List (BitVec 64)) : Prop :=
  listed.Nodup ∧ ∀ h, h ∈ listed ↔ h ∈ inherited

/-- An attribute has the value that restricts the worker. 1 opts out of what all AppContainers may do, 1 restricts
the creation of child processes; the mitigations are DEP, SEHOP, mandatory relocation of images (also of those
without relocations), termination on heap corruption, bottom-up and high-entropy ASLR, and no win32k calls. -/
def Restricts (inherited : List (BitVec 64)) : ProcAttr → Prop
  | .securityCapabilities _ => True
  | .allApplicationPackagesPolicy v => v = 1#32
  | .handleList l => ExactHandles inherited l
  | .childProcessPolicy v => v = 1#32
  | .mitigationPolicy v => v = 0x10111305#32

/-- A profile could not be created: the first time, or after one left over from another process was deleted.
0x800700B7 says that there is one. -/
def NoProfile (r : WinRound) : Prop :=
  r.profile1 ≠ 0#32 ∧ (r.profile1 = 0x800700B7#32 → r.profile2 ≠ 0#32)

/-- The operating system did not provide this kind of protection: it said so when asked, or for mitigations a
process could not be created. Without an AppContainer there is no less privileged one. -/
def Refused (supported : Bool) (inherited : List (BitVec 64)) (rounds : Nat → WinRound) : Nat → Prop
  | 0 => supported = false ∨ ∃ k, NoProfile (rounds k) ∨ ∃ id, (rounds k).setOk (.securityCapabilities id) = false
  | 1 => (∃ k, (rounds k).setOk (.allApplicationPackagesPolicy 1#32) = false) ∨
    supported = false ∨ ∃ k, NoProfile (rounds k) ∨ ∃ id, (rounds k).setOk (.securityCapabilities id) = false
  | 2 => ∃ k l, ExactHandles inherited l ∧ (rounds k).setOk (.handleList l) = false
  | 3 => ∃ k, (rounds k).setOk (.childProcessPolicy 1#32) = false
  | 4 => ∃ k, (rounds k).setOk (.mitigationPolicy 0x10111305#32) = false ∨ (rounds k).createOk = false
  | _ => False

/-- A call of `CreateProcess` is well-formed: every slot of the list of attributes is filled, each attribute is
there once and has the value that restricts the worker. -/
def GoodCall (inherited : List (BitVec 64)) (c : CreateProcessCall) : Prop :=
  c.slots = c.attributes.length ∧ (c.attributes.map attrKind).Nodup ∧ ∀ a ∈ c.attributes, Restricts inherited a

/-- The handles a process gets from its parent, of those the parent has marked inheritable, if it is created with
inheritance of handles: those in the list of handles, and all if there is no such list. -/
def inheritedBy (c : CreateProcessCall) (inheritable : List (BitVec 64)) : List (BitVec 64) :=
  inheritable.filter fun h => c.attributes.all fun
    | .handleList l => l.contains h
    | _ => true

end Iris.Spec
