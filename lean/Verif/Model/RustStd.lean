/-!
# The pieces of the Rust standard library the code relies on

Nothing here is code from /repo: these are the documented behaviours of `str`,
`HashMap` and `HashSet` methods called by it (trusted base, see DESIGN.md).
-/
namespace Iris

/-- Rust `str`/`String`: a sequence of Unicode scalar values. Lean's `Char` is
exactly a Unicode scalar value. -/
abbrev Str := List Char

deriving instance DecidableEq for Except

/-- `c!"abc"` is the character list `['a', 'b', 'c']`. -/
macro:max "c!" s:str : term => do
  let elems ← s.getString.toList.toArray.mapM fun c =>
    `($(Lean.Syntax.mkCharLit c))
  `([$elems,*])

/-- `str::strip_suffix(c: char)`. -/
def stripSuffix (c : Char) (s : Str) : Option Str :=
  if s.getLast? = some c then some s.dropLast else none

/-- `str::strip_prefix(c: char)`. -/
def stripPrefix (c : Char) : Str → Option Str
  | [] => none
  | x :: xs => if x = c then some xs else none

/-- `str::strip_prefix(p: &str)`. -/
def stripPrefixStr : Str → Str → Option Str
  | [], s => some s
  | _ :: _, [] => none
  | p :: ps, x :: xs => if x = p then stripPrefixStr ps xs else none

/-- `str::starts_with(c: char)`. -/
def startsWith (c : Char) (s : Str) : Bool := (stripPrefix c s).isSome

/-- `str::split(c: char).collect()`: always at least one piece. -/
def split (c : Char) : Str → List Str
  | [] => [[]]
  | x :: xs =>
    if x = c then [] :: split c xs
    else match split c xs with
      | [] => [[x]]
      | h :: t => (x :: h) :: t

/-- `str::rsplit_once(c: char)`: split at the last occurrence. -/
def rsplitOnce (c : Char) : Str → Option (Str × Str)
  | [] => none
  | x :: xs =>
    match rsplitOnce c xs with
    | some (a, b) => some (x :: a, b)
    | none => if x = c then some ([], xs) else none

/-- `HashMap<String, α>` as an association list. The order of the list stands
for the (unspecified) iteration order of the map. -/
abbrev AMap (α : Type) := List (Str × α)

/-- `HashMap::get`. -/
def AMap.get {α : Type} (m : AMap α) (k : Str) : Option α :=
  match m with
  | [] => none
  | (k', v) :: rest => if k' = k then some v else AMap.get rest k

/-- `HashMap::insert`: replaces the previous value if there is one. -/
def AMap.insert {α : Type} (m : AMap α) (k : Str) (v : α) : AMap α :=
  (k, v) :: m.filter (fun e => e.1 ≠ k)

/-- `HashMap::eq`: same number of entries, and each entry of one is in the
other with an equal value. -/
def AMap.eq {α : Type} [DecidableEq α] (a b : AMap α) : Bool :=
  a.length == b.length && a.all (fun e => decide (AMap.get b e.1 = some e.2))

/-- `HashSet::insert`. -/
def setInsert {α : Type} [DecidableEq α] (s : List α) (x : α) : List α :=
  if x ∈ s then s else x :: s

/-- `HashSet::eq`. -/
def setEq {α : Type} [DecidableEq α] (a b : List α) : Bool :=
  a.length == b.length && a.all (fun x => decide (x ∈ b))

/-- `format!("{:X}", n)` for an unsigned value. -/
def hexUpper (n : Nat) : Str := (Nat.toDigits 16 n).map Char.toUpper

/-- `format!("{:#X}", n)`: `0x` then upper-case digits. -/
def hexAlt (n : Nat) : Str := '0' :: 'x' :: hexUpper n

/-- `format!("{}", n)` for an unsigned value. -/
def dec (n : Nat) : Str := Nat.toDigits 10 n

end Iris
