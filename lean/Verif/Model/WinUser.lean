import Verif.Model.WinPolicy
import Verif.Model.LogText
/-!
# The user a Windows broker runs as

Models policy/src/windows/path.rs:93-142 `get_current_user_sid`, and the text Windows makes of an identifier of a user.
-/
namespace Iris

/-- Windows: the identifier of a user (SID, revision 1): the authority, 48 bits, and at most 15 numbers of 32 bits. -/
structure Sid where
  authority : BitVec 48
  subs : List (BitVec 32)
deriving DecidableEq, Repr

/-- Windows: `ConvertSidToStringSid`. An authority which needs more than 32 bits is written in hexadecimal; leading zeros
are not modelled. -/
def Sid.text (s : Sid) : Str :=
  c!"S-1-" ++ (if s.authority.toNat < 2 ^ 32 then dec s.authority.toNat else hexAlt s.authority.toNat)
    ++ s.subs.flatMap fun n => '-' :: dec n.toNat

/-- What the system answers: `OpenProcessToken`, the handle it makes; `GetTokenInformation` called twice, the size it asks for
and the user it writes; whether `ConvertSidToStringSid` succeeds. -/
structure TokenOs where
  token : Option (BitVec 64)
  size : Nat
  user : Option Sid
  converts : Bool

/-- Handles of the process, and texts allocated by the system that must be freed. -/
structure TokenState where
  handles : List (BitVec 64)
  texts : List Str
deriving DecidableEq, Repr

/-- policy/src/windows/path.rs:93-142. `none` is a panic, after which variables are dropped as well: the token
(its handle is closed), and the buffer. A token is a valid handle, so `from_raw` does not fail. A buffer of `size` bytes is
too small for a user if it is empty. -/
def currentUserSid (os : TokenOs) (s : TokenState) : Option Str × TokenState :=
  match os.token with
  | none => (none, s)
  | some h =>
    let s := { s with handles := h :: s.handles }
    let close (s : TokenState) : TokenState := { s with handles := s.handles.erase h }
    match (if os.size = 0 then none else os.user) with
    | none => (none, close s)
    | some u =>
      if os.converts = false then (none, close s)
      else
        let s := { s with texts := u.text :: s.texts }
        let sid := u.text
        let s := { s with texts := s.texts.erase sid }
        (some sid, close s)

end Iris
