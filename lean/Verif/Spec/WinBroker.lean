import Verif.Model.WinBroker
/-!
# What serving a Windows worker is supposed to mean

In terms of requests, system calls and replies.
-/
namespace Iris.Spec

/-- The request in an acceptable message: well-formed, at most 64 KiB, and naming no handle. -/
def winRequest : WinIncoming → Option WinIPCRequest
  | .message data =>
    if data.length ≤ 65536 then
      match winUnwrap decWinRequest data with
      | some (r, none) => some r
      | _ => none
    else none
  | _ => none

/-- The handle value a message names. -/
def winNamed : WinIncoming → Option (BitVec 64)
  | .message data =>
    if data.length ≤ 65536 then (winUnwrap decWinRequest data).bind (·.2) else none
  | _ => none

/-- What the policy is asked about a request. Links are never followed (0x200000 is
`FILE_OPEN_REPARSE_POINT`). -/
def winAsked : WinIPCRequest → Option WinRequest
  | .initialization => none
  | .ntCreateFile access path _ attributes share disposition options ea =>
    some (.fileOpen path access attributes share disposition (options ||| 0x200000#32) ea)
  | .ntCreateKey access path _ _ options create => some (.regKeyOpen path access options create)

/-- The policy grants the request. -/
def WinGrants (debug : Bool) (p : Policy) (r : WinIPCRequest) : Prop :=
  ∃ q, winAsked r = some q ∧ (p.winEvaluate debug q).1 = .granted

instance (debug : Bool) (p : Policy) (r : WinIPCRequest) : Decidable (WinGrants debug p r) :=
  match h : winAsked r with
  | none => .isFalse (by rintro ⟨q, hq, _⟩; rw [h] at hq; cases hq)
  | some q =>
    if hg : (p.winEvaluate debug q).1 = .granted then .isTrue ⟨q, h, hg⟩
    else .isFalse (by rintro ⟨q', hq, hg'⟩; rw [h] at hq; cases hq; exact hg hg')

/-- The calls of the log callbacks for a request. -/
def winNotes (debug : Bool) (p : Policy) (r : WinIPCRequest) : List WinAction :=
  match winAsked r with
  | none => []
  | some q => (p.winEvaluate debug q).2.map .notified

/-- The system call that carries out a request, if `name` is how a string is given to the kernel. The file
attributes are not the worker's: 0x80 is `FILE_ATTRIBUTE_NORMAL`. -/
def winCallFor (name : Str → List U16) : WinIPCRequest → Option NtCall
  | .initialization => none
  | .ntCreateFile access path allocation _ share disposition options ea =>
    some (.createFile access (name path) allocation 0x80#32 share disposition (options ||| 0x200000#32) ea)
  | .ntCreateKey access path titleIndex cls options true =>
    some (.createKey access (name path) titleIndex (cls.map name) options)
  | .ntCreateKey access path _ _ _ false => some (.openKey access (name path))

/-- How strings are in fact given to the kernel: a multiple of 32768 units is lost. -/
def cutName (s : Str) : List U16 := (utf16 s).take ((utf16 s).length % 32768)

/-- The reply to a granted request after the system call returned `res`. -/
def winAnswer (res : NtResult) : WinIPCRequest → WinIPCResponse
  | .ntCreateKey _ _ _ _ _ create =>
    .ntCreateKey (if res.status.toInt < 0 then 0#32 else if create then res.disposition else 2#32) res.status
  | _ => .ntCreateFile res.info res.status

/-- What is done for one request before the reply. `name` as above. -/
def winWork (name : Str → List U16) (debug : Bool) (p : Policy) (r : WinIPCRequest) (res : NtResult) :
    List WinAction :=
  winNotes debug p r ++
    (if WinGrants debug p r then (winCallFor name r).toList.map (.called · res) else [])

/-- The reply: refused (0xC0000022 is `STATUS_ACCESS_DENIED`), failed, or successful with the new handle, of
value `v` in the worker. -/
def winReply (debug : Bool) (p : Policy) (r : WinIPCRequest) (res : NtResult) (v : BitVec 64) : WinAction :=
  if WinGrants debug p r then
    .sent (winAnswer res r) (if res.status.toInt < 0 then none else some (v, res.object))
  else .sent (.syscallResult 0xC0000022#32) none

/-- One request that was answered: the request, the result of the call made for it if any, the value of the
handle sent if any. -/
structure WinExchange where
  req : WinIPCRequest
  res : NtResult
  value : BitVec 64

/-- All that is done for a list of answered requests. -/
def winTranscript (name : Str → List U16) (debug : Bool) (p : Policy) (l : List WinExchange) : List WinAction :=
  l.flatMap fun e => winWork name debug p e.req e.res ++ [winReply debug p e.req e.res e.value]

/-- The system calls in a trace. -/
def winCallsIn (tr : List WinAction) : List NtCall :=
  tr.filterMap fun
    | .called c _ => some c
    | _ => none

/-- The messages sent, in a trace. -/
def winSentIn (tr : List WinAction) : List WinAction :=
  tr.filter fun
    | .sent _ _ => true
    | _ => false

end Iris.Spec
