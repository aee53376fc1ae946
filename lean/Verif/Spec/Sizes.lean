/-! # Specification vocabulary for the sizes of messages -/
namespace Iris.Spec

/-- The bytes of a number written with 7 bits in each. -/
def sevenBits (n : Nat) : Nat := if n < 128 then 1 else sevenBits (n / 128) + 1
termination_by n
decreasing_by omega

/-- A number with a sign is sent as twice itself if it is not negative, and as one less than twice its opposite if it is. -/
def unsigned {w : Nat} (v : BitVec w) : Nat := if 0 ≤ v.toInt then (2 * v.toInt).toNat else (-2 * v.toInt - 1).toNat

/-- Linux, a path of `n` bytes: one byte for the kind of request, the number of bytes, the path, the flags. -/
def messageSize (n : Nat) (flags : BitVec 32) : Nat := 1 + sevenBits n + n + sevenBits (unsigned flags)

/-- Windows, a file whose name has `n` bytes: one byte for the kind of request, what is asked for, one byte for the number
of extended attributes (none), one for the handle (none). -/
def fileMessageSize (access : BitVec 32) (n : Nat) (allocation : BitVec 64) (attributes share disposition options : BitVec 32) :
    Nat :=
  1 + sevenBits access.toNat + sevenBits n + n + sevenBits (unsigned allocation) + sevenBits attributes.toNat +
    sevenBits share.toNat + sevenBits disposition.toNat + sevenBits options.toNat + 1 + 1

/-- Windows, a registry key whose name has `n` bytes: one byte each for the kind of request, the title index (0), whether there
is a class, whether the key may be created, the handle (none). -/
def keyMessageSize (access : BitVec 32) (n : Nat) (cls : Option Nat) (options : BitVec 32) : Nat :=
  1 + sevenBits access.toNat + sevenBits n + n + 1 +
    (match cls with
      | none => 1
      | some m => 1 + sevenBits m + m) + sevenBits options.toNat + 1 + 1

end Iris.Spec
