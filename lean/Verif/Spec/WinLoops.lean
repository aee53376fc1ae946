import Verif.Model.WinLoops
import Verif.Spec.WinBroker
/-! What serving several Windows workers at once is supposed to mean. -/
namespace Iris.Spec

/-- What the thread of worker `j` has received, in order. -/
def winHeard (j : Nat) (ls : List WinLoopEvent) : List (WinIncoming × WinChoice) :=
  ls.filterMap fun
    | .recv k inc os _ => if k = j then some (inc, os) else none
    | _ => none

/-- No worker has sent a message naming a handle. -/
def NoHandleNamed (ls : List WinLoopEvent) : Prop :=
  ∀ j inc os s, .recv j inc os s ∈ ls → winNamed inc = none

/-- The greeting: asked for by the first message, and written. -/
def WinGreets (i : WinIncoming × WinChoice) : Prop :=
  winRequest i.1 = some .initialization ∧ i.2.writeOk = true

/-- Everything done after the greeting, for the first requests, `done` of them answered and one more not (yet). -/
structure WinFollows (debug : Bool) (p : Policy) (heard : List (WinIncoming × WinChoice)) (trace : List WinAction)
    (done : List WinExchange) (cut : Option (WinIPCRequest × NtResult)) : Prop where
  /-- the first message asks for the policy, which is sent; the requests served are the next ones, -/
  heard : ∃ first rest, heard = first :: rest ∧ WinGreets first ∧
    (done.map fun e => some e.req) ++ (cut.toList.map fun c => some c.1) <+: rest.map (fun i => winRequest i.1)
  /-- and this is all that is done for them. -/
  trace : trace = .sent (.initialization p) none :: winTranscript cutName debug p done ++
    cut.toList.flatMap (fun c => winWork cutName debug p c.1 c.2)

end Iris.Spec
