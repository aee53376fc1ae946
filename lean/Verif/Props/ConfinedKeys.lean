import Verif.Lemmas.ConfinedKeys
/-!
# C148: a Windows program which stays within its rules does not see in the registry that it is confined
-/
namespace Iris
open Spec

/-- C148: whatever the program, what it sees of the registry and what it does to it are the same with and without the sandbox, if it calls
`NtCreateKey` only for keys it may write to (and read, if it asks for rights which do neither), and its rules allow all it does when it is not
confined. Missing from the full statement: calls for keys it may only read. -/
theorem C148_invisible_partial : KeysInvisible KeyPlain := by
  intro debug os h k w cs
  induction cs generalizing w with
  | nil => intro _ _ _; exact ⟨rfl, rfl⟩
  | cons c cs ih =>
    obtain ⟨c, q⟩ := c
    intro hrun hcs ⟨ha, hp, hrest⟩
    obtain ⟨a1, a2, a3, a4, a5, a6, a7⟩ := ha
    obtain ⟨h1, h2, h3, _⟩ := key_turn debug (Policy.nothingAllowed.winCalls os h) k w c q (hcs (c, q) (by simp)) hrun a7
    have h3 := h3 ((C59_registry_exact_partial debug os h q.path q.access q.options true a6).2
      ⟨a1, a2, a3, fun hr => hr.elim a4 hp.2, fun _ => hp.1⟩)
    have e1 := congrArg Prod.fst h3
    have e2 := congrArg Prod.snd h3
    simp only at e1 e2
    have := ih (w.turn debug (Policy.nothingAllowed.winCalls os h) k c).2 h1
      (fun c' h' => by rw [h2]; exact hcs c' (List.mem_cons_of_mem _ h')) (by rw [e2]; exact hrest)
    simp only [List.map_cons, ConfinedKeys.run, bareKeyRun]
    rw [e2] at this
    exact ⟨by rw [e1, this.1], this.2⟩

/-- C148: a call its rules do not allow fails with `STATUS_ACCESS_DENIED` (0xC0000022), and keys are as they were. -/
theorem C148_refused (debug : Bool) (os : WinOs) (h : List WinCall) (k : KeyKernel) (w : ConfinedKeys) (c : KeyTurn) (q : KeyAsk)
    (hc : KeyTurnServed w.broker.tables.broker (c, q)) (hrun : w.broker.running = true)
    (hlen : keyMessageSize q.access (utf8 q.path).length (q.cls.map fun c => (utf8 c).length) q.options ≤ 65536)
    (hno : ¬ (RegWriteAllowed os.sid h q.path ∧ (AsksKeyRead q.access → RegReadAllowed os.sid h q.path))) :
    (w.turn debug (Policy.nothingAllowed.winCalls os h) k c).1 = .failed 0xC0000022#32 ∧
    (w.turn debug (Policy.nothingAllowed.winCalls os h) k c).2.tree = c.others w.tree := by
  refine (key_turn debug (Policy.nothingAllowed.winCalls os h) k w c q hc hrun hlen).2.2.2 fun hg => hno ?_
  obtain ⟨_, _, _, h1, h2⟩ := C59_no_excess_access debug os h _ _ _ _ hg
  exact ⟨h2 (.inr rfl), h1⟩

/-- C148: whatever the call, if it is served, it fails with `STATUS_ACCESS_DENIED` and changes nothing, or it is allowed by the rules and is the
same as without the sandbox. -/
theorem C148_all_or_nothing (debug : Bool) (os : WinOs) (h : List WinCall) (k : KeyKernel) (w : ConfinedKeys) (c : KeyTurn) (q : KeyAsk)
    (hc : KeyTurnServed w.broker.tables.broker (c, q)) (hrun : w.broker.running = true)
    (hlen : keyMessageSize q.access (utf8 q.path).length (q.cls.map fun c => (utf8 c).length) q.options ≤ 65536) :
    let x := w.turn debug (Policy.nothingAllowed.winCalls os h) k c
    (x.1 = .failed 0xC0000022#32 ∧ x.2.tree = c.others w.tree) ∨
    (RegWriteAllowed os.sid h q.path ∧ (AsksKeyRead q.access → RegReadAllowed os.sid h q.path) ∧
      (x.1, x.2.tree) = bareKeyTurn k w.tree (c, q)) := by
  intro x
  obtain ⟨_, _, h3, h4⟩ := key_turn debug (Policy.nothingAllowed.winCalls os h) k w c q hc hrun hlen
  by_cases hg : ((Policy.nothingAllowed.winCalls os h).winEvaluate debug (.regKeyOpen q.path q.access q.options true)).1 = .granted
  · obtain ⟨_, _, _, h1, h2⟩ := C59_no_excess_access debug os h _ _ _ _ hg
    exact .inr ⟨h2 (.inr rfl), h1, h3 hg⟩
  · exact .inl (h4 hg)

/-! ## Witnesses -/

/-- `\REGISTRY\MACHINE\k` with `a`, and `l`, a link to `\REGISTRY\MACHINE\k\a`; `\REGISTRY\MACHINE\s`. -/
def keyConfTree : KeyTree :=
  [⟨[(c!"REGISTRY", 1)], [], none⟩, ⟨[(c!"MACHINE", 2)], [], none⟩, ⟨[(c!"k", 3), (c!"s", 6)], [], none⟩,
    ⟨[(c!"a", 4), (c!"l", 5)], [], none⟩, ⟨[], [1], none⟩, ⟨[], [], some [c!"REGISTRY", c!"MACHINE", c!"k", c!"a"]⟩, ⟨[], [2], none⟩]

def keyConfKernel : KeyKernel := ⟨id, fun _ cs => cs, false⟩

def keyConfRules : List WinCall := [.regRead c!"HKEY_LOCAL_MACHINE\\k", .regWrite c!"HKEY_LOCAL_MACHINE\\k"]

/-- `NtCreateKey`, of a program which wants the disposition. -/
def keyConfTurn (path : Str) (access : BitVec 32) : KeyTurn × KeyAsk :=
  (⟨id, [(4, 9)], ⟨true, access, some ⟨0, some ⟨BitVec.ofNat 16 (2 * (utf16 path).length), utf16 path⟩⟩, 0, none, 0, true⟩, none, 0x100,
    some 0x20, true⟩, ⟨path, none, access, 0, true⟩)

def keyConfStart : ConfinedKeys := ⟨keyConfTree, WinBroker.start ⟨[(4, 1), (8, 2)], []⟩ 4 8⟩

/-- A program opens a key through a link, creates a key, and opens this key again. -/
def keyConfCalls : List (KeyTurn × KeyAsk) :=
  [keyConfTurn c!"\\REGISTRY\\MACHINE\\k\\l" 1, keyConfTurn c!"\\REGISTRY\\MACHINE\\k\\n" 3, keyConfTurn c!"\\REGISTRY\\MACHINE\\k\\n" 1]

theorem keyConf_served {path : Str} {access : BitVec 32} (h : (utf16 path).length < 32768) :
    KeyTurnServed [(4, 1), (8, 2)] (keyConfTurn path access) := by
  refine ⟨⟨rfl, ⟨_, rfl, ?_, List.prefix_refl _⟩, rfl, .inl ⟨rfl, rfl⟩, rfl, rfl, rfl⟩, rfl, ⟨0x20, rfl, by decide, ?_⟩,
    ⟨show (0x100 : BitVec 64) ≠ 0#64 by decide, ?_⟩, ?_⟩
  · simp only [BitVec.toNat_ofNat, keyConfTurn]; omega
  · intro e he
    simp only [keyConfTurn, List.mem_singleton] at he
    subst he; decide
  · intro e he
    simp only [List.mem_cons, List.not_mem_nil, or_false] at he
    rcases he with rfl | rfl <;> simp [keyConfTurn]
  · intro e he; cases he

theorem keyConf_reads {path : Str} (hc : c!"\\REGISTRY\\MACHINE\\k\\" <+: trim path) {h : List WinCall}
    (hh : .regRead c!"HKEY_LOCAL_MACHINE\\k" ∈ h) : RegReadAllowed plainOs.sid h path :=
  ⟨_, c!"\\REGISTRY\\MACHINE\\k", hh, ⟨c!"HKEY_LOCAL_MACHINE", c!"\\REGISTRY\\MACHINE", c!"\\k", by simp [regRoots], rfl, by decide⟩, .inr hc⟩

theorem keyConf_writes {path : Str} (hc : c!"\\REGISTRY\\MACHINE\\k\\" <+: trim path) : RegWriteAllowed plainOs.sid keyConfRules path :=
  ⟨_, c!"\\REGISTRY\\MACHINE\\k", by simp [keyConfRules],
    ⟨c!"HKEY_LOCAL_MACHINE", c!"\\REGISTRY\\MACHINE", c!"\\k", by simp [regRoots], rfl, by decide⟩, .inr hc⟩

/-- All keys in `k` may be read and written. -/
theorem keyConf_allowed {path : Str} {access : BitVec 32} {t : KeyTree} (hc : c!"\\REGISTRY\\MACHINE\\k\\" <+: trim path)
    (h1 : SupportedKeyAccess access) (he : ¬ HasEmptyName path) (hl : (utf8 path).length ≤ 60000) :
    KeyCallAllowed plainOs.sid keyConfRules keyConfKernel t (keyConfTurn path access).2 ∧
    KeyPlain plainOs.sid keyConfRules (keyConfTurn path access).2 :=
  ⟨⟨h1, .inl rfl, .inr (keyConf_writes hc), fun _ => keyConf_reads hc (by simp [keyConfRules]), fun _ => keyConf_writes hc, he, keyMessage_short (cls := none) hl⟩,
    keyConf_writes hc, fun _ => keyConf_reads hc (by simp [keyConfRules])⟩

theorem keyConf_one : SupportedKeyAccess 1#32 := by unfold SupportedKeyAccess OnlyBits; decide
theorem keyConf_three : SupportedKeyAccess 3#32 := by unfold SupportedKeyAccess OnlyBits; decide

/-- The hypotheses of `C148_invisible_partial` are met. -/
theorem keyConf_within : KeysWithin (KeyPlain plainOs.sid keyConfRules) plainOs.sid keyConfRules keyConfKernel keyConfTree keyConfCalls := by
  have g1 := fun t => keyConf_allowed (t := t) (path := c!"\\REGISTRY\\MACHINE\\k\\l") (by decide) keyConf_one (by simp only [HasEmptyName]; decide) (by decide)
  have g2 := fun t => keyConf_allowed (t := t) (path := c!"\\REGISTRY\\MACHINE\\k\\n") (by decide) keyConf_three (by simp only [HasEmptyName]; decide) (by decide)
  have g3 := fun t => keyConf_allowed (t := t) (path := c!"\\REGISTRY\\MACHINE\\k\\n") (by decide) keyConf_one (by simp only [HasEmptyName]; decide) (by decide)
  exact ⟨(g1 _).1, (g1 []).2, (g2 _).1, (g2 []).2, (g3 _).1, (g3 []).2, trivial⟩

theorem keyConf_calls_served : ∀ c ∈ keyConfCalls, KeyTurnServed keyConfStart.broker.tables.broker c := by
  intro c hc
  simp only [keyConfCalls, List.mem_cons, List.not_mem_nil, or_false] at hc
  rcases hc with rfl | rfl | rfl <;> exact keyConf_served (by decide +kernel)

/-- What this program sees: the key the link leads to, a new key, and the same key again. -/
example : (keyConfStart.run false (Policy.nothingAllowed.winCalls plainOs keyConfRules) keyConfKernel (keyConfCalls.map Prod.fst)).1 =
      [.opened 4 (some 2), .opened 7 (some 1), .opened 7 (some 2)] ∧
    (bareKeyRun keyConfKernel keyConfTree keyConfCalls).1 = [.opened 4 (some 2), .opened 7 (some 1), .opened 7 (some 2)] := by
  decide +kernel

/-- `\REGISTRY\MACHINE\s` is refused. -/
example : (keyConfStart.turn false (Policy.nothingAllowed.winCalls plainOs keyConfRules) keyConfKernel
    (keyConfTurn c!"\\REGISTRY\\MACHINE\\s" 1).1).1 = .failed 0xC0000022 := by decide +kernel

/-- C148, the full statement, does not hold: a program which may read a key that exists opens it with `NtCreateKey` to read it; confined, this
is refused, since the call would make the key if there were none. -/
theorem C148_violated : ¬ KeysInvisible (fun _ _ _ => True) := by
  intro hinv
  have := hinv false plainOs [.regRead c!"HKEY_LOCAL_MACHINE\\k"] keyConfKernel keyConfStart [keyConfTurn c!"\\REGISTRY\\MACHINE\\k\\a" 1] rfl ?_ ?_
  · have h1 := this.1
    revert h1
    decide +kernel
  · intro c hc
    rw [List.mem_singleton.1 hc]
    exact keyConf_served (by decide +kernel)
  · have hr : RegReadAllowed plainOs.sid [.regRead c!"HKEY_LOCAL_MACHINE\\k"] c!"\\REGISTRY\\MACHINE\\k\\a" :=
      keyConf_reads (by decide) (by simp)
    refine ⟨⟨keyConf_one, .inl rfl, .inl hr, fun _ => hr, ?_, by simp only [HasEmptyName]; decide, keyMessage_short (cls := none) (by decide)⟩, trivial, trivial⟩
    rintro (hw | ⟨i, place, hi, hlen⟩)
    · have : ¬ AsksKeyWrite 1#32 false := by unfold AsksKeyWrite; decide
      exact absurd hw this
    · have h4 : (ntCreateKey keyConfKernel keyConfTree 1#32 (utf16 c!"\\REGISTRY\\MACHINE\\k\\a") 0#32 none).1 = .ok (4, some (3, c!"a")) := by
        decide +kernel
      have h5 := h4.symm.trans hi
      cases h5
      exact absurd hlen (by decide)

end Iris
