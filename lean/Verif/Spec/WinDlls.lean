import Verif.Model.WinDlls
/-!
# What permissions on files mean on Windows
-/
namespace Iris.Spec

/-- The access check: the entries are looked at in their order until everything needed is allowed. Those which are only to
be inherited (flag 8), and those of other trustees, do not count. An entry of kind 0 allows, one of kind 1
denies. (Other kinds are not looked at.) -/
def grants (who : Bytes → Bool) (need : BitVec 32) : List Ace → Bool
  | [] => need == 0
  | a :: l =>
    if need = 0 then true
    else if a.flags &&& 8 ≠ 0 ∨ who a.sid = false then grants who need l
    else if a.kind = 0 then grants who (need &&& ~~~a.mask) l
    else if a.kind = 1 ∧ a.mask &&& need ≠ 0 then false
    else grants who need l

/-- Someone with these identities has these rights on a file with this list; a file without a list is open to all. -/
def mayAccess (who : Bytes → Bool) (need : BitVec 32) : Option (List Ace) → Bool
  | none => true
  | some l => grants who need l

/-- No entry denies anything to this trustee, and none of its entries is only to be inherited. -/
def Simple (sid : Bytes) (l : List Ace) : Prop := ∀ a ∈ l, a.sid = sid → a.kind ≠ 1 ∧ a.flags &&& 8 = 0

/-- What is documented about `SetEntriesInAcl` with `GRANT_ACCESS`: others have the rights they had; nobody loses any right;
only these rights are new; the trustee has them if nothing was denied to it; and nothing else is added. -/
structure GrantsAccess (grant : List Ace → BitVec 32 → Bytes → List Ace) : Prop where
  others : ∀ l m sid who need, who sid = false → grants who need (grant l m sid) = grants who need l
  more : ∀ l m sid who need, grants who need l = true → grants who need (grant l m sid) = true
  only : ∀ l m sid who need, grants who need (grant l m sid) = true → grants who (need &&& ~~~m) l = true
  given : ∀ l m sid, Simple sid l → grants (· == sid) m (grant l m sid) = true
  simple : ∀ l m sid sid', Simple sid' l → Simple sid' (grant l m sid)

/-- "ALL APPLICATION PACKAGES" (S-1-15-2-1) and "ALL RESTRICTED APPLICATION PACKAGES" (S-1-15-2-2). -/
def packages : List Bytes :=
  [[1, 2, 0, 0, 0, 0, 0, 15, 2, 0, 0, 0, 1, 0, 0, 0], [1, 2, 0, 0, 0, 0, 0, 15, 2, 0, 0, 0, 2, 0, 0, 0]]

/-- Reading, reading extended attributes, executing, reading attributes, reading the permissions, waiting. -/
def loadRights : BitVec 32 := 0x1200A9

/-- The system lists this name for the DLLs of this directory (which ends with a backslash): `dir\*.dll`. -/
def ListedDll (os : DllOs) (dir name : Bytes) : Prop := name ∈ (os.find (dir ++ utf8 c!"*.dll")).1

/-- The path of an executable: a directory which ends with a backslash, and a name. 92 is a backslash, 47 a slash: both
separate the names of a path on Windows. -/
def ExecutableIn (exe dir : Bytes) : Prop :=
  ∃ name, exe = dir ++ name ∧ 92 ∉ name ∧ 47 ∉ name ∧ dir.getLast? = some 92

/-- All calls made for one file and one trustee succeed. -/
def Succeeds (o : AclOs) : Prop :=
  o.getInfo = .ok () ∧ o.aclInfo = .ok () ∧ (∀ i, o.getAce i = .ok ()) ∧ o.setEntries = .ok () ∧ o.setInfo = .ok ()

end Iris.Spec
