import Verif.Model.Postcard
/-!
# Text in a fixed buffer

Models ipc/src/stackbuffer.rs, used to format messages and names where memory cannot be
allocated (linux-entrypoint/src/error.rs:26-60, ipc/src/windows/channel.rs:38-47).
-/
namespace Iris

/-- ipc/src/stackbuffer.rs:4-7 `StackBuffer`. `buf` always has SIZE bytes. -/
structure StackBuffer where
  buf : Bytes
  used : Nat
deriving DecidableEq, Repr

/-- ipc/src/stackbuffer.rs:9-16 `Default`. -/
def StackBuffer.default (size : Nat) : StackBuffer := ⟨List.replicate size 0, 0⟩

/-- lines 27-32: bytes of the second list replace those of the first, as far as both go. -/
def zipCopy : Bytes → Bytes → Bytes
  | _ :: dst, b :: src => b :: zipCopy dst src
  | dst, _ => dst

/-- ipc/src/stackbuffer.rs:25-35 `write_str`. `none` is a panic: `SIZE - 1` underflows (line 26) or
the range of line 27 is not valid. `used + len` cannot overflow: no string is longer than half
of the address space. -/
def StackBuffer.writeStr (b : StackBuffer) (s : Bytes) : Option StackBuffer :=
  if b.buf.length = 0 then none
  else
    let capacity := b.buf.length - 1
    if b.used ≤ capacity then
      some ⟨b.buf.take b.used ++ zipCopy ((b.buf.take capacity).drop b.used) s ++ b.buf.drop capacity,
        min capacity (b.used + s.length)⟩
    else none

/-- A formatted write is a sequence of `write_str`, which never fail (line 34). -/
def StackBuffer.writeAll : StackBuffer → List Bytes → Option StackBuffer
  | b, [] => some b
  | b, s :: ss =>
    match b.writeStr s with
    | none => none
    | some b => b.writeAll ss

/-- ipc/src/stackbuffer.rs:19-21 `as_bytes`. `none` is a panic. -/
def StackBuffer.asBytes (b : StackBuffer) : Option Bytes :=
  if b.used ≤ b.buf.length then some (b.buf.take b.used) else none

end Iris
