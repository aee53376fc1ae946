import Verif.Model.Policy
/-!
# The wire format

postcard 1.x (a dependency, not in /repo: its documented wire format is in the
trusted base), as used through ipc/src/channel.rs:29-77. `usize` is 64 bits.
-/
namespace Iris

abbrev Bytes := List UInt8

/-- A deserializer: consumes a prefix of the input, or fails. All of postcard's
error values are `none`. -/
abbrev Parser (α : Type) := Bytes → Option (α × Bytes)

/-- postcard `varint_u32`/`varint_u64`/`varint_usize`: little-endian groups of
seven bits, the high bit of a byte says that another one follows. -/
def encVarint (n : Nat) : Bytes :=
  if n < 128 then [UInt8.ofNat n]
  else UInt8.ofNat (n % 128 + 128) :: encVarint (n / 128)
termination_by n
decreasing_by omega

/-- postcard `try_take_varint_*`: at most `k` bytes; the `k`-th must have no
continuation bit and be at most `lastMax`. `shift` is `7 * i`. -/
def takeVarint (lastMax : Nat) : (k : Nat) → (shift acc : Nat) → Parser Nat
  | 0, _, _, _ => none
  | _ + 1, _, _, [] => none
  | k + 1, shift, acc, b :: bs =>
    let acc := acc + (b.toNat % 128) * 2 ^ shift
    if b.toNat < 128 then
      if k = 0 ∧ b.toNat > lastMax then none else some (acc, bs)
    else takeVarint lastMax k (shift + 7) acc bs

/-- `u32` is at most 5 bytes, the last one at most 0x0F. -/
def decU32 : Parser Nat := takeVarint 15 5 0 0
/-- `u64` and `usize` are at most 10 bytes, the last one at most 1. -/
def decU64 : Parser Nat := takeVarint 1 10 0 0

/-- `u32`. -/
def encB32 (v : BitVec 32) : Bytes := encVarint v.toNat
def decB32 : Parser (BitVec 32) := fun bs => (decU32 bs).map fun (n, r) => (BitVec.ofNat 32 n, r)
/-- `u64`, `usize`. -/
def encB64 (v : BitVec 64) : Bytes := encVarint v.toNat
def decB64 : Parser (BitVec 64) := fun bs => (decU64 bs).map fun (n, r) => (BitVec.ofNat 64 n, r)

/-- postcard `zig_zag_i32`/`zig_zag_i64`: `(n << 1) ^ (n >> (w - 1))`. -/
def zigzag {w : Nat} (v : BitVec w) : BitVec w := (v <<< 1) ^^^ (v.sshiftRight (w - 1))
/-- postcard `de_zig_zag_i32`/`de_zig_zag_i64`: `(n >> 1) ^ -(n & 1)`. -/
def unzigzag {w : Nat} (v : BitVec w) : BitVec w := (v >>> 1) ^^^ (-(v &&& 1#w))

/-- `i32`. -/
def encI32 (v : BitVec 32) : Bytes := encB32 (zigzag v)
def decI32 : Parser (BitVec 32) := fun bs => (decB32 bs).map fun (n, r) => (unzigzag n, r)
/-- `i64`. -/
def encI64 (v : BitVec 64) : Bytes := encB64 (zigzag v)
def decI64 : Parser (BitVec 64) := fun bs => (decB64 bs).map fun (n, r) => (unzigzag n, r)

/-- `bool`: one byte, 0 or 1, anything else is an error. -/
def encBool (b : Bool) : Bytes := [if b then 1 else 0]
def decBool : Parser Bool
  | [] => none
  | b :: bs => if b = 0 then some (false, bs) else if b = 1 then some (true, bs) else none

/-- `&[u8]`: length, then the bytes. -/
def encBytes (b : Bytes) : Bytes := encVarint b.length ++ b
def decBytes : Parser Bytes := fun bs =>
  (decU64 bs).bind fun (n, r) => if n ≤ r.length then some (r.take n, r.drop n) else none

/-- The UTF-8 bytes of a `str`. -/
def utf8 (s : Str) : Bytes := s.flatMap String.utf8EncodeChar
/-- `core::str::from_utf8`. -/
def fromUtf8 (b : Bytes) : Option Str := (ByteArray.mk b.toArray).utf8Decode?.map (·.toList)

/-- `&str`: length in bytes, then the UTF-8 bytes, validated when decoded. -/
def encStr (s : Str) : Bytes := encBytes (utf8 s)
def decStr : Parser Str := fun bs =>
  (decBytes bs).bind fun (b, r) => (fromUtf8 b).map fun s => (s, r)

/-- `Option<T>`: a tag byte 0 or 1. -/
def encOption {α : Type} (e : α → Bytes) : Option α → Bytes
  | none => [0]
  | some a => 1 :: e a
def decOption {α : Type} (d : Parser α) : Parser (Option α)
  | [] => none
  | b :: bs =>
    if b = 0 then some (none, bs)
    else if b = 1 then (d bs).map fun (a, r) => (some a, r) else none

/-- The value tuple of a file or directory rule (policy/src/policy.rs:28-29). -/
def encAcc (a : Acc) : Bytes :=
  encBool a.read ++ encBool a.write ++ encBool a.blockR ++ encBool a.blockW ++ encBool a.blockD
def decAcc : Parser Acc := fun bs => do
  let (r, bs) ← decBool bs
  let (w, bs) ← decBool bs
  let (x, bs) ← decBool bs
  let (y, bs) ← decBool bs
  let (z, bs) ← decBool bs
  return (⟨r, w, x, y, z⟩, bs)

/-- The value tuple of a registry key rule (policy/src/policy.rs:30). -/
def encPair (a : Bool × Bool) : Bytes := encBool a.1 ++ encBool a.2
def decPair : Parser (Bool × Bool) := fun bs => do
  let (r, bs) ← decBool bs
  let (w, bs) ← decBool bs
  return ((r, w), bs)

/-- `HashMap<String, α>`: number of entries, then key and value of each in
iteration order. -/
def encMap {α : Type} (e : α → Bytes) (m : AMap α) : Bytes :=
  encVarint m.length ++ m.flatMap fun kv => encStr kv.1 ++ e kv.2
/-- The entries are inserted in the order read; a repeated key overwrites. -/
def decEntries {α : Type} (d : Parser α) : Nat → AMap α → Parser (AMap α)
  | 0, m, bs => some (m, bs)
  | n + 1, m, bs => do
    let (k, bs) ← decStr bs
    let (v, bs) ← d bs
    decEntries d n (AMap.insert m k v) bs
def decMap {α : Type} (d : Parser α) : Parser (AMap α) := fun bs => do
  let (n, bs) ← decU64 bs
  decEntries d n [] bs

/-- policy/src/policy.rs:22-32 derived `Serialize`: the two `#[serde(skip)]`
fields are absent. -/
def encPolicy (p : Policy) : Bytes :=
  encMap encAcc p.files ++ encMap encAcc p.dirs ++ encMap encPair p.regkeys ++ encBool p.auditOnly
/-- policy/src/policy.rs:22-32 derived `Deserialize`: skipped fields get their
default, an empty vector and an empty set. -/
def decPolicy : Parser Policy := fun bs => do
  let (f, bs) ← decMap decAcc bs
  let (d, bs) ← decMap decAcc bs
  let (k, bs) ← decMap decPair bs
  let (a, bs) ← decBool bs
  return (⟨[], [], f, d, k, a⟩, bs)

/-- ipc/src/lib.rs:26 `IPC_MESSAGE_MAX_SIZE`. -/
def IPC_MESSAGE_MAX_SIZE : Nat := 64 * 1024

/-- ipc/src/channel.rs:29-48 `serialize` into a buffer of `cap` bytes: `none` is
`InternalSerializationError { "message too long" }`. -/
def serialize (cap : Nat) (enc : Bytes) : Option Bytes :=
  if enc.length ≤ cap then some enc else none

/-- ipc/src/channel.rs:50-77 `deserialize`: `postcard::from_bytes` does not look
at bytes left over. `none` is `InternalDeserializationError`. -/
def deserialize {α : Type} (d : Parser α) (bs : Bytes) : Option α := (d bs).map Prod.fst

end Iris
