import Verif.Model.WinKeys
import Verif.Spec.WinBroker
import Verif.Spec.WinPolicy
/-!
# Which key a path names, and what a worker may have done to the registry
-/
namespace Iris.Spec

/-- The path is made of these names, each after one backslash or more; backslashes can also end it. -/
def KeyPathOf (path : Str) (cs : List Str) : Prop :=
  ∃ parts : List Str, path = parts.flatMap (fun c => '\\' :: c) ∧ (∀ c ∈ parts, '\\' ∉ c) ∧ cs = parts.filter fun c => decide (c ≠ [])

/-- The names, one after the other, lead from the root to this key, without any link. Names with the same upper case are the same. -/
inductive KeyNamed (up : Str → Str) (t : KeyTree) : List Str → Nat → Prop
  | root : KeyNamed up t [] 0
  | entry (cs : List Str) (d : Nat) (key : KeyNode) (n c : Str) (i : Nat) (h : KeyNamed up t cs d) (hd : t[d]? = some key)
    (hm : (n, i) ∈ key.subkeys) (hc : up n = up c) : KeyNamed up t (cs ++ [c]) i

/-- Some rule is on this path. -/
def KeyAllowed (sid : Str) (h : List WinCall) (path : Str) : Prop := RegReadAllowed sid h path ∨ RegWriteAllowed sid h path

/-- No key on the way to what the rules allow is a link, and neither is what they allow. -/
def NoKeyLinks (up : Str → Str) (sid : Str) (h : List WinCall) (t : KeyTree) : Prop :=
  ∀ path cs ds i key, KeyAllowed sid h path → KeyPathOf path cs → ds <+: cs → KeyNamed up t ds i → t[i]? = some key → key.link = none

/-- The rules let write to this key. -/
def KeyMayWrite (up : Str → Str) (sid : Str) (h : List WinCall) (t : KeyTree) (i : Nat) : Prop :=
  ∃ path cs, RegWriteAllowed sid h path ∧ KeyPathOf path cs ∧ KeyNamed up t cs i

/-- The rules let write to what has this name in this key. -/
def KeyMayEnter (up : Str → Str) (sid : Str) (h : List WinCall) (t : KeyTree) (d : Nat) (c : Str) : Prop :=
  ∃ path cs c', RegWriteAllowed sid h path ∧ KeyPathOf path (cs ++ [c']) ∧ up c' = up c ∧ KeyNamed up t cs d

/-- What a worker may have made of a key: other values, if its rules let it write to this key; other keys in it, which are new ones if
they were added, if its rules let it write there. It does not become a link or stop being one, and a link leads where it led. -/
def KeyMayBecome (up : Str → Str) (sid : Str) (h : List WinCall) (t : KeyTree) (i : Nat) (old new : KeyNode) : Prop :=
  (new.values = old.values ∨ KeyMayWrite up sid h t i) ∧ new.link = old.link ∧
  (∀ c j, (c, j) ∈ new.subkeys → (c, j) ∈ old.subkeys ∨ List.length t ≤ j ∧ KeyMayEnter up sid h t i c) ∧
  (∀ c j, (c, j) ∈ old.subkeys → (c, j) ∈ new.subkeys ∨ KeyMayEnter up sid h t i c)

/-- All a worker may have done: the keys there were, each as it may have become, and new keys, which are no links, with nothing but new
keys in these. -/
def KeysMayHaveDone (up : Str → Str) (sid : Str) (h : List WinCall) (t t' : KeyTree) : Prop :=
  (∀ i key, t[i]? = some key → ∃ key', t'[i]? = some key' ∧ KeyMayBecome up sid h t i key key') ∧
  (∀ i key, List.length t ≤ i → t'[i]? = some key → key.link = none ∧ ∀ c j, (c, j) ∈ key.subkeys → List.length t ≤ j)

/-- The worker's requests name keys by paths which are not too long for the broker. -/
def ShortKeyNames (l : List (WinIncoming × WinChoice)) : Prop :=
  ∀ i ∈ l, ∀ access path titleIndex cls options create,
    winRequest i.1 = some (.ntCreateKey access path titleIndex cls options create) → (utf16 path).length < 32768

/-- Values, or the names of the keys in it, can be read through this handle: `KEY_QUERY_VALUE` (0), `KEY_ENUMERATE_SUB_KEYS` (3), or
all that can be had (25), `GENERIC_ALL` (28), `GENERIC_READ` (31). -/
def KeyReadable (access : BitVec 32) : Prop := ∃ b ∈ [0, 3, 25, 28, 31], access.getLsbD b = true

/-- The key can be changed through this handle: values set (1), keys made (2), itself deleted (16), its protection or owner changed (18,
19), or one of these as a generic right. -/
def KeyWritable (access : BitVec 32) : Prop := ∃ b ∈ [1, 2, 16, 18, 19, 25, 28, 30], access.getLsbD b = true

end Iris.Spec
