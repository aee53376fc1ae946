import Verif.Model.ChannelPair
/-!
# What a user of a channel may rely on (C114)

Only in terms of what was given to `send` and what `recv` returned.
-/
namespace Iris

/-- Before any channel is created: every file some process has open has a number already used. -/
def Spec.BeforeChannels (s : SockNet) : Prop :=
  (∀ f, s.socks f = none) ∧ ∀ pid fd e, (s.tables pid).get fd = some e → e.file < s.next

/-- The messages `send` accepted on an end, with the file of the handle sent along, in order. -/
def Spec.sentOn (evs : List ChanEvent) (sock : Nat) : List (Bytes × Option Nat) :=
  evs.filterMap fun
    | .sent s (some bytes) file (.ok ()) => if s = sock then some (bytes, file) else none
    | _ => none

/-- A result of `recv`, with how it was called. -/
structure Spec.Receipt : Type 1 where
  {α : Type}
  dec : Parser α
  cap : Nat
  result : Except IpcError (Option (α × Option Nat))

/-- Did this call of `recv` say that a message arrived? Not if it reported the end of the channel or a
failure of the system. -/
def Spec.Receipt.arrived (r : Spec.Receipt) : Bool :=
  match r.result with
  | .ok none => false
  | .error (.internalOsOperationFailed _ _) => false
  | _ => true

/-- The calls of `recv` on an end which said that a message arrived, in order. -/
def Spec.receivedOn (evs : List ChanEvent) (sock : Nat) : List Spec.Receipt :=
  evs.filterMap fun
    | .received s dec cap result =>
      if s = sock ∧ (Spec.Receipt.mk dec cap result).arrived then some ⟨dec, cap, result⟩ else none
    | _ => none

/-- This result of `recv` is about this message: the message itself with a handle on the very file
that was sent, or an error saying it was larger than the buffer (or that its handle could not be
taken), or that it is not a message of the expected type. -/
def Spec.Receipt.About (r : Spec.Receipt) (m : Bytes × Option Nat) : Prop :=
  match r.result with
  | .ok (some (x, file)) => deserialize r.dec m.1 = some x ∧ file = m.2 ∧ m.1.length ≤ r.cap
  | .error (.payloadTooBigToTransmit start) =>
    start = m.1.take r.cap ∧ (r.cap < m.1.length ∨ m.2 ≠ none)
  | .error (.internalDeserializationError bytes) =>
    bytes = m.1 ∧ deserialize r.dec m.1 = none ∧ m.1.length ≤ r.cap
  | _ => False

/-- What arrived is about the first messages sent, one by one, in the order they were sent. -/
def Spec.InOrder (sent : List (Bytes × Option Nat)) (received : List Spec.Receipt) : Prop :=
  received.length ≤ sent.length ∧ ∀ p ∈ received.zip sent, p.1.About p.2

/-- These two ends were created together, in either order. -/
def Spec.Pair (evs : List ChanEvent) (a b : Nat) : Prop :=
  .created (some (a, b)) ∈ evs ∨ .created (some (b, a)) ∈ evs

/-- The last thing seen is `recv` saying the channel `sock` has ended. -/
def Spec.SaysEnded (ev : ChanEvent) (sock : Nat) : Prop :=
  match ev with
  | .received s _ _ (.ok none) => s = sock
  | _ => False

end Iris
