import Verif.Model.Threads
/-! # What concurrent callers are supposed to get -/
namespace Iris.Spec

/-- The replies of a broker to a sequence of requests, one each, in order. -/
def repliesTo {σ Req Resp : Type} (serve : σ → Req → σ × Resp) : σ → List Req → List Resp
  | _, [] => []
  | s, r :: rs => (serve s r).2 :: repliesTo serve (serve s r).1 rs

/-- The requests a thread sent, each with the broker's reply to it. -/
def ownExchanges {σ Req Resp : Type} (serve : σ → Req → σ × Resp) (s : σ) (sends : List (Nat × Req))
    (i : Nat) : List (Req × Resp) :=
  ((sends.zip (repliesTo serve s (sends.map Prod.snd))).filter (fun x => x.1.1 = i)).map
    fun x => (x.1.2, x.2)

/-- A thread has a call in progress. -/
def Busy {σ Req Resp : Type} (w : World σ Req Resp) (i : Nat) : Prop := w.pc i ≠ .idle

end Iris.Spec
