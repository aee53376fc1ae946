import Verif.Model.WinThreads
import Verif.Spec.Threads
import Verif.Spec.WinWorker
/-! # What concurrent hooked calls are supposed to get -/
namespace Iris.Spec

/-- A thread is in a hooked call. -/
def InCall {σ Req Resp : Type} (w : LWorld σ Req Resp) (i : Nat) : Prop := w.stack i ≠ []

/-- A step in which no thread starts a call, unless it is in one. -/
def GoesOn {σ Req Resp : Type} (serve : σ → Req → σ × Resp) (log : Logger Req Resp) (w w' : LWorld σ Req Resp) : Prop :=
  LWorld.Step serve log w w' ∧ ∀ j, ¬ InCall w j → ¬ InCall w' j

/-- `n` such steps. -/
inductive GoesOnFor {σ Req Resp : Type} (serve : σ → Req → σ × Resp) (log : Logger Req Resp) :
    Nat → LWorld σ Req Resp → LWorld σ Req Resp → Prop
  | zero (w) : GoesOnFor serve log 0 w w
  | succ {n w w' w''} (h : GoesOn serve log w w') (hs : GoesOnFor serve log n w' w'') :
    GoesOnFor serve log (n + 1) w w''

/-- The logger makes no hooked calls. -/
def MakesNoCalls {Req Resp : Type} (log : Logger Req Resp) : Prop := (∀ r, log.onSend r = none) ∧ ∀ a, log.onRecv a = none

/-- The broker after it served requests one at a time, the first of them with the choices `os k` of the system. -/
def servedInTurn (debug : Bool) (p : Policy) (os : Nat → WinChoice) : WinBroker → Nat → List WinIPCRequest → WinBroker
  | b, _, [] => b
  | b, k, r :: rs => servedInTurn debug p os (winAfter debug p b (os k) r) (k + 1) rs

end Iris.Spec
