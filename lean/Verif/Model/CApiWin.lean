import Verif.Model.CApi
import Verif.Model.WinPolicy
/-!
# Log callbacks of the C API on Windows

Models bindings/C/broker/src/windows/mod.rs, and the parts of bindings/C/broker/src/policy.rs that call a C function with the
converted request, with the memory they allocate.
-/
namespace Iris

/-- A block of the heap: where, the layout it was allocated with, what is in it. -/
structure CBlock where
  addr : Nat
  size : Nat
  align : Nat
  data : Bytes
deriving DecidableEq, Repr

abbrev CHeap := List CBlock

/-- How a piece of code ends: with a value, with a panic, by ending the process, or nothing can be said. -/
inductive Ran (α : Type)
  | ok (a : α) (heap : CHeap)
  | panics (heap : CHeap)
  | aborts
  | undefined
deriving DecidableEq

def Ran.bind {α β : Type} (r : Ran α) (f : α → CHeap → Ran β) : Ran β :=
  match r with
  | .ok a h => f a h
  | .panics h => .panics h
  | .aborts => .aborts
  | .undefined => .undefined

/-- The system has memory at this address: it is not null and not in use. -/
def CHeap.fresh (h : CHeap) (a : Nat) : Bool := a != 0 && !(h.any (·.addr == a))

def CHeap.at? (h : CHeap) (a : Nat) : Option CBlock := h.find? (·.addr == a)

/-- bindings/C/broker/src/windows/mod.rs:45-50: `alloc`, whose result is not checked, and the copy. `alloc` with a layout of
size zero is undefined behaviour by its contract, and so is copying to the null pointer it returns when there is no memory. -/
def rawCopy (h : CHeap) (a : Nat) (data : Bytes) : Ran Nat :=
  if data.length = 0 then .undefined
  else if h.fresh a then .ok a (⟨a, data.length, 16, data⟩ :: h)
  else .undefined

/-- `CString::new(s).unwrap().into_raw()`. -/
def cStringNew (h : CHeap) (a : Nat) (s : Str) : Ran Nat :=
  if '\x00' ∈ s then .panics h
  else if h.fresh a then .ok a (⟨a, (utf8 s).length + 1, 1, utf8 s ++ [0]⟩ :: h)
  else .aborts

/-- `dealloc`: the layout has to be that of the block. -/
def CHeap.dealloc (h : CHeap) (a size align : Nat) : Ran Unit :=
  match h.at? a with
  | some b => if b.size = size ∧ b.align = align then .ok () (h.filter (·.addr ≠ a)) else .undefined
  | none => .undefined

/-- The bytes a C program reads as a string at this address; `none` if there is no such memory. -/
def CHeap.string (h : CHeap) (a : Nat) : Option Bytes := (h.at? a).map fun b => b.data.takeWhile (· ≠ 0)

/-- The bytes a C program reads at this address, with the length. -/
def CHeap.bytes (h : CHeap) (a len : Nat) : Option Bytes :=
  (h.at? a).bind fun b => if len ≤ b.data.length then some (b.data.take len) else none

/-- `drop(CString::from_raw(p))`: the length is found with `strlen`. -/
def CHeap.dropString (h : CHeap) (a : Nat) : Ran Unit :=
  match h.string a with
  | some s => h.dealloc a (s.length + 1) 1
  | none => .undefined

/-- bindings/C/broker/src/windows/mod.rs:7-25 `IrisPolicyRequest`. -/
inductive WinCRequest
  | fileOpen (path : Nat) (access attributes share disposition options : BitVec 32) (ea eaLength : Nat)
  | regKeyOpen (path : Nat) (access options : BitVec 32) (create : Bool)
deriving DecidableEq, Repr

/-- bindings/C/broker/src/policy.rs:259-272 `IrisPolicyVerdict`, with its pointers. -/
inductive WinCVerdict
  | granted
  | deniedByPolicy (why : Nat)
  | delegationNotSupported (why : Nat)
  | invalidRequestParameters (argName why : Nat)
deriving DecidableEq, Repr

/-- bindings/C/broker/src/windows/mod.rs:27-73 `From<&PolicyRequest>`. The addresses are what the allocator answers, by number of
the allocation. -/
def WinCRequest.ofRust (h : CHeap) (addr : Nat → Nat) : WinRequest → Ran WinCRequest
  | .fileOpen path access attributes share disposition options ea =>
    (rawCopy h (addr 0) ea).bind fun e h =>
    (cStringNew h (addr 1) path).bind fun p h =>
    .ok (.fileOpen p access attributes share disposition options e ea.length) h
  | .regKeyOpen path access options create =>
    (cStringNew h (addr 1) path).bind fun p h => .ok (.regKeyOpen p access options create) h

/-- bindings/C/broker/src/policy.rs:274-294 `From<&PolicyVerdict>`. -/
def WinCVerdict.ofRust (h : CHeap) (addr : Nat → Nat) : Verdict → Ran WinCVerdict
  | .granted => .ok .granted h
  | .deniedByPolicy why => (cStringNew h (addr 2) why).bind fun w h => .ok (.deniedByPolicy w) h
  | .delegationNotSupported why => (cStringNew h (addr 2) why).bind fun w h => .ok (.delegationNotSupported w) h
  | .invalidRequestParameters a why =>
    (cStringNew h (addr 2) a).bind fun a h =>
    (cStringNew h (addr 3) why).bind fun w h => .ok (.invalidRequestParameters a w) h

/-- bindings/C/broker/src/windows/mod.rs:75-97 `Drop`. -/
def WinCRequest.drop (h : CHeap) : WinCRequest → Ran Unit
  | .fileOpen p _ _ _ _ _ e len => (h.dropString p).bind fun _ h => h.dealloc e len 16
  | .regKeyOpen p _ _ _ => h.dropString p

/-- bindings/C/broker/src/policy.rs:296-310 `Drop`. -/
def WinCVerdict.drop (h : CHeap) : WinCVerdict → Ran Unit
  | .granted => .ok () h
  | .deniedByPolicy w | .delegationNotSupported w => h.dropString w
  | .invalidRequestParameters a w => (h.dropString a).bind fun _ h => h.dropString w

/-- What the C function reads from its first argument. -/
inductive WinCSeen
  | fileOpen (path : Bytes) (access attributes share disposition options : BitVec 32) (ea : Bytes)
  | regKeyOpen (path : Bytes) (access options : BitVec 32) (create : Bool)
deriving DecidableEq, Repr

def WinCRequest.seen (h : CHeap) : WinCRequest → Option WinCSeen
  | .fileOpen p a b c d e ea len =>
    (h.string p).bind fun path => (h.bytes ea len).map fun ea => .fileOpen path a b c d e ea
  | .regKeyOpen p a o c => (h.string p).map fun path => .regKeyOpen path a o c

/-- What it reads from its second one. -/
def WinCVerdict.seen (h : CHeap) : WinCVerdict → Option CVerdict
  | .granted => some .granted
  | .deniedByPolicy w => (h.string w).map .deniedByPolicy
  | .delegationNotSupported w => (h.string w).map .delegationNotSupported
  | .invalidRequestParameters a w => (h.string a).bind fun a => (h.string w).map fun w => .invalidRequestParameters a w

/-- bindings/C/broker/src/policy.rs:339-346: one call of a registered C function: which, and what it reads. Both values are
dropped after it, the second one first. Simplified: what is dropped on the way of a panic is not, so after one only
what was allocated before is known. -/
def winCNotify (h : CHeap) (addr : Nat → Nat) (n : Notification WinRequest) : Ran (Nat × WinCSeen × CVerdict) :=
  (WinCRequest.ofRust h addr n.request).bind fun r h =>
  (WinCVerdict.ofRust h addr n.verdict).bind fun v h =>
  match r.seen h, v.seen h with
  | some rs, some vs =>
    (v.drop h).bind fun _ h => (r.drop h).bind fun _ h => .ok (n.callback, rs, vs) h
  | _, _ => .undefined

end Iris
