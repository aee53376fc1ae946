import Verif.Lemmas.ManyKeys
/-!
# C142: all workers of a Windows broker together open and change only the files and keys their rules name
-/
namespace Iris
open Spec

/-! ### Files -/

section
variable {os : WinOs} {full : Str → Str} {h : Nat → List WinCall} {w w' : WholeWin} {ls : List WholeWinEvent}
  {es : List (SharedEvent NtTree)} {k : NtKernel} {fs : NtTree} {st : SharedBy NtTree NtOpened}

/-- C142: as long as no reparse point is on the way at first, workers are not let make one and name files by paths which are not too
long, each file a worker has is one made since, or is named by a path its own rules allow, whatever the other workers do. It had this
name when it was opened. The rules allow to read it if it can be read from, unless it was emptied when it was opened, and to write to
it if it can be changed or deleted. -/
theorem C142_opened_partial (hos : FullNames os full) (hn : NoWinWorkers w) (he : WholeWinExec false DeclaredHandle w ls w')
    (hrules : WinRulesAre os h w' ls) (hev : WinEventsOf w' es) (hp : AllPlainNames ls) (hk : k.linkable = false)
    (hl : ∀ j, NoReparsePoints k.upcase full (h j) fs) (hr : ManyNtRun k fs es st) (j : Nat) (o : NtOpened) (ho : o ∈ st.opened j) :
    ∃ path cs tree, PathOf path cs ∧ OpenedIn j es tree ∧ NtNamed k.upcase tree cs o.file ∧
      (List.length fs ≤ o.file ∨ NtNamed k.upcase fs cs o.file) ∧ (∃ right, Given full (h j) right path) ∧
      (NtReadable o.access → Given full (h j) .read path ∨ o.disposition ≠ 1 ∧ o.disposition ≠ 3 ∧ Given full (h j) .write path) ∧
      (NtWritable o.access ∨ Has o.options 0x1000 → Given full (h j) .write path) := by
  have hg := manyNt_granted hos hn he hrules hev hp
  obtain ⟨path, cs, _, _, share, ea, r, before, tree, hm, h1, h2, _, _, _, h5, h6⟩ := (manyNt_each hr hk hl hg).1 j o ho
  obtain ⟨es', st', h7, rfl, h9⟩ := manyNt_then hr hm
  have hd := manyNt_done h7 hk hl (fun j _ _ _ _ _ _ _ _ _ hm => hg j _ _ _ _ _ _ _ _ _ (winDoneFor_sub h9 hm)) mem_sharedWho
  refine ⟨path, cs, _, h1, ⟨_, _, hm⟩, h2, hd.named h2, h5, ?_, ?_⟩
  · rintro ⟨b, hb, hx⟩
    by_cases hdis : o.disposition = 1 ∨ o.disposition = 3
    · exact .inl (h6 .read ⟨⟨b, by revert hb; simp; omega, hx⟩, hdis⟩)
    · exact .inr ⟨fun x => hdis (.inl x), fun x => hdis (.inr x), h6 .write (.inr (.inl fun x => hdis (.inl x)))⟩
  · rintro (x | x)
    · exact h6 .write (.inl x)
    · exact h6 .write (.inr (.inr (.inl x)))

/-- C142: in the same circumstances, all that is done for a worker is what its own rules allow in the files there are then; and all a
worker does with files it has is to files, or names in directories, which its own rules let it write to when something was opened
for it. -/
theorem C142_changes_partial (hos : FullNames os full) (hn : NoWinWorkers w) (he : WholeWinExec false DeclaredHandle w ls w')
    (hrules : WinRulesAre os h w' ls) (hev : WinEventsOf w' es) (hp : AllPlainNames ls) (hk : k.linkable = false)
    (hl : ∀ j, NoReparsePoints k.upcase full (h j) fs) (hr : ManyNtRun k fs es st) (l1 l2 : List (SharedEvent NtTree)) (j : Nat)
    (before after : NtTree) :
    (∀ a, es = l1 ++ .did j a before after :: l2 → NtMayHaveDone k.upcase full (h j) before after) ∧
    (es = l1 ++ .acted j before after :: l2 →
      NtMayAct k.upcase (fun i => ∃ tree, OpenedIn j l1 tree ∧ NtMayWrite k.upcase full (h j) tree i)
        (fun d c => ∃ tree, OpenedIn j l1 tree ∧ NtMayEnter k.upcase full (h j) tree d c) before after) := by
  have hall := (manyNt_each hr hk hl (manyNt_granted hos hn he hrules hev hp)).2
  exact ⟨fun a e => (hall l1 _ l2 e).1 j a before after rfl, fun e => (hall l1 _ l2 e).2 j before after rfl⟩

/-- C142: in the same circumstances, all that has changed in the end is what the rules of those workers allow, by or for which something
was done. -/
theorem C142_changed_partial (hos : FullNames os full) (hn : NoWinWorkers w) (he : WholeWinExec false DeclaredHandle w ls w')
    (hrules : WinRulesAre os h w' ls) (hev : WinEventsOf w' es) (hp : AllPlainNames ls) (hk : k.linkable = false)
    (hl : ∀ j, NoReparsePoints k.upcase full (h j) fs) (hr : ManyNtRun k fs es st) (js : List Nat)
    (hjs : ∀ e ∈ es, ∀ j, WinChangeBy j e → j ∈ js) : NtMayHaveDone k.upcase full (js.flatMap h) fs st.tree :=
  manyNt_done hr hk hl (manyNt_granted hos hn he hrules hev hp) hjs

/-- C142: so a file which no worker's rules let write to is left alone. -/
theorem C142_left_alone_partial (hos : FullNames os full) (hn : NoWinWorkers w) (he : WholeWinExec false DeclaredHandle w ls w')
    (hrules : WinRulesAre os h w' ls) (hev : WinEventsOf w' es) (hp : AllPlainNames ls) (hk : k.linkable = false)
    (hl : ∀ j, NoReparsePoints k.upcase full (h j) fs) (hr : ManyNtRun k fs es st) (i : Nat) (n : NtNode) (hi : fs[i]? = some n)
    (hf : ∀ entries, n ≠ .dir entries) (hnone : ∀ j, ¬ NtMayWrite k.upcase full (h j) fs i) : st.tree[i]? = some n := by
  obtain ⟨n', h1, h2⟩ := (C142_changed_partial hos hn he hrules hev hp hk hl hr _ mem_sharedWho).1 i n hi
  cases h2 with
  | same => exact h1
  | content _ b hb hw =>
    obtain ⟨path, cs, a, b, c⟩ := hw
    obtain ⟨j, _, a⟩ := given_union a
    exact absurd ⟨path, cs, a, b, c⟩ (hnone j)
  | entries old new => exact absurd rfl (hf old)

/-- C142: no reparse point is made where rules allow something, of these workers or of others. -/
theorem C142_no_links_made_partial (hos : FullNames os full) (hn : NoWinWorkers w) (he : WholeWinExec false DeclaredHandle w ls w')
    (hrules : WinRulesAre os h w' ls) (hev : WinEventsOf w' es) (hp : AllPlainNames ls) (hk : k.linkable = false)
    (hl : ∀ j, NoReparsePoints k.upcase full (h j) fs) (hr : ManyNtRun k fs es st) (h' : List WinCall)
    (hl' : NoReparsePoints k.upcase full h' fs) : NoReparsePoints k.upcase full h' st.tree :=
  (C142_changed_partial hos hn he hrules hev hp hk hl hr _ mem_sharedWho).noReparsePoints_other hl'
end

/-! ### Keys -/

section
variable {os : WinOs} {h : Nat → List WinCall} {w w' : WholeWin} {ls : List WholeWinEvent}
  {es : List (SharedEvent KeyTree)} {k : KeyKernel} {t : KeyTree} {st : SharedBy KeyTree KeyOpened}

/-- C142: as long as no link is on the way at first, the system leads no access elsewhere and lets rename no keys, and the names are not
too long, each key a worker has is one made since, or is named by a path its own rules allow, whatever the other workers do. It had
this name when it was opened. The rules allow to read it if it can be read from, and to write to it if it can be changed or if it would
have been made. -/
theorem C142_keys_opened_partial (hn : NoWinWorkers w) (he : WholeWinExec false DeclaredHandle w ls w')
    (hrules : WinRulesAre os h w' ls) (hev : WinEventsOf w' es) (hp : AllShortKeyNames ls) (hk : k.renames = false)
    (hv : ∀ access cs, k.view access cs = cs) (hl : ∀ j, NoKeyLinks k.upcase os.sid (h j) t) (hr : ManyKeysRun k t es st) (j : Nat)
    (o : KeyOpened) (ho : o ∈ st.opened j) :
    ∃ path cs tree, KeyPathOf path cs ∧ OpenedIn j es tree ∧ KeyNamed k.upcase tree cs o.key ∧
      (List.length t ≤ o.key ∨ KeyNamed k.upcase t cs o.key) ∧ KeyAllowed os.sid (h j) path ∧
      (KeyReadable o.access → RegReadAllowed os.sid (h j) path) ∧
      (KeyWritable o.access ∨ o.create = true → RegWriteAllowed os.sid (h j) path) := by
  have hg := manyKeys_granted hn he hrules hev hp
  obtain ⟨path, a, before, tree, hm, _, ⟨cs, h1, h2, _⟩, _, _, h4, h5, h6⟩ := (manyKeys_each hr hk hv hl hg).1 j o ho
  obtain ⟨es', st', h7, rfl, h9⟩ := manyKeys_then hr hm
  have hd := (manyKeys_done h7 hk hv hl (hg.sub h9) mem_sharedWho).1
  exact ⟨path, cs, _, h1, ⟨_, _, hm⟩, h2, hd.named h2, h4, h5, h6⟩

/-- C142: in the same circumstances, all that is done for a worker is what its own rules allow in the registry as it is then; and all a
worker does with keys it has is to keys, or names in keys, which its own rules let it write to when something was opened for it. -/
theorem C142_keys_changes_partial (hn : NoWinWorkers w) (he : WholeWinExec false DeclaredHandle w ls w')
    (hrules : WinRulesAre os h w' ls) (hev : WinEventsOf w' es) (hp : AllShortKeyNames ls) (hk : k.renames = false)
    (hv : ∀ access cs, k.view access cs = cs) (hl : ∀ j, NoKeyLinks k.upcase os.sid (h j) t) (hr : ManyKeysRun k t es st)
    (l1 l2 : List (SharedEvent KeyTree)) (j : Nat) (before after : KeyTree) :
    (∀ a, es = l1 ++ .did j a before after :: l2 → KeysMayHaveDone k.upcase os.sid (h j) before after) ∧
    (es = l1 ++ .acted j before after :: l2 →
      KeysMayAct k.upcase (fun i => ∃ tree, OpenedIn j l1 tree ∧ KeyMayWrite k.upcase os.sid (h j) tree i)
        (fun d c => ∃ tree, OpenedIn j l1 tree ∧ KeyMayEnter k.upcase os.sid (h j) tree d c) before after) := by
  have hall := (manyKeys_each hr hk hv hl (manyKeys_granted hn he hrules hev hp)).2
  exact ⟨fun a e => (hall l1 _ l2 e).1 j a before after rfl, fun e => (hall l1 _ l2 e).2 j before after rfl⟩

/-- C142: in the same circumstances, all that has changed in the end is what the rules of those workers allow, by or for which something
was done. -/
theorem C142_keys_changed_partial (hn : NoWinWorkers w) (he : WholeWinExec false DeclaredHandle w ls w')
    (hrules : WinRulesAre os h w' ls) (hev : WinEventsOf w' es) (hp : AllShortKeyNames ls) (hk : k.renames = false)
    (hv : ∀ access cs, k.view access cs = cs) (hl : ∀ j, NoKeyLinks k.upcase os.sid (h j) t) (hr : ManyKeysRun k t es st)
    (js : List Nat) (hjs : ∀ e ∈ es, ∀ j, WinChangeBy j e → j ∈ js) : KeysMayHaveDone k.upcase os.sid (js.flatMap h) t st.tree :=
  (manyKeys_done hr hk hv hl (manyKeys_granted hn he hrules hev hp) hjs).1

/-- C142: so the values of a key which no worker's rules let write to are left alone. -/
theorem C142_keys_left_alone_partial (hn : NoWinWorkers w) (he : WholeWinExec false DeclaredHandle w ls w')
    (hrules : WinRulesAre os h w' ls) (hev : WinEventsOf w' es) (hp : AllShortKeyNames ls) (hk : k.renames = false)
    (hv : ∀ access cs, k.view access cs = cs) (hl : ∀ j, NoKeyLinks k.upcase os.sid (h j) t) (hr : ManyKeysRun k t es st) (i : Nat)
    (key : KeyNode) (hi : t[i]? = some key) (hnone : ∀ j, ¬ KeyMayWrite k.upcase os.sid (h j) t i) :
    ∃ key', st.tree[i]? = some key' ∧ key'.values = key.values ∧ key'.link = key.link := by
  obtain ⟨key', h1, h2, h3, _⟩ := (C142_keys_changed_partial hn he hrules hev hp hk hv hl hr _ mem_sharedWho).1 i key hi
  refine ⟨key', h1, h2.resolve_right ?_, h3⟩
  rintro ⟨path, cs, ⟨r, k', hr, rest⟩, b, c⟩
  obtain ⟨j, _, hr⟩ := List.mem_flatMap.1 hr
  exact hnone j ⟨path, cs, ⟨r, k', hr, rest⟩, b, c⟩

/-- C142: no link is made where rules allow something, of these workers or of others. -/
theorem C142_keys_no_links_made_partial (hn : NoWinWorkers w) (he : WholeWinExec false DeclaredHandle w ls w')
    (hrules : WinRulesAre os h w' ls) (hev : WinEventsOf w' es) (hp : AllShortKeyNames ls) (hk : k.renames = false)
    (hv : ∀ access cs, k.view access cs = cs) (hl : ∀ j, NoKeyLinks k.upcase os.sid (h j) t) (hr : ManyKeysRun k t es st)
    (h' : List WinCall) (hl' : NoKeyLinks k.upcase os.sid h' t) : NoKeyLinks k.upcase os.sid h' st.tree :=
  (C142_keys_changed_partial hn he hrules hev hp hk hv hl hr _ mem_sharedWho).noKeyLinks_other hl'
end

/-! ### Two workers -/

/-- The first worker may read in `C:\d` and `HKEY_LOCAL_MACHINE\k`, the second may write there. -/
def twoWinRules (j : Nat) : List WinCall :=
  if j = 0 then [.fs (.dirRead c!"C:\\d"), .regRead c!"HKEY_LOCAL_MACHINE\\k"]
  else if j = 1 then [.fs (.dirWrite c!"C:\\d"), .regWrite c!"HKEY_LOCAL_MACHINE\\k"] else []

def twoWinPolicy (j : Nat) : Policy := Policy.nothingAllowed.winCalls plainOs (twoWinRules j)

def twoWinMade : List WholeWinEvent × WholeWin :=
  ([.made 0 launchConfig (twoWinPolicy 0) firstOs launchWorld, .made 1 secondConfig (twoWinPolicy 1) (secondOs winGoodRound) launchWorld],
   (noWinWorkers.made 0 (.make launchConfig (twoWinPolicy 0) firstOs)).made 1
     (.make secondConfig (twoWinPolicy 1) (secondOs winGoodRound)))

theorem twoWinMade_exec : WholeWinExec false DeclaredHandle noWinWorkers twoWinMade.1 twoWinMade.2 := by
  refine .call _ _ 1 secondConfig (twoWinPolicy 1) (secondOs winGoodRound)
    (.call [] noWinWorkers 0 launchConfig (twoWinPolicy 0) firstOs .start rfl
      fun h hd => ⟨?_, (fun k x hx => by cases hx), fun k x hx => by cases hx⟩) rfl
    fun h hd => (secondConfig_none (by decide +kernel) hd).elim
  have e1 : (twoWinPolicy 0).inheritedHandles = [] := by decide +kernel
  have e2 : Policy.nothingAllowed.inheritedHandles = [] := by decide
  have hd' : DeclaredHandle .nothingAllowed launchConfig h := by
    obtain ⟨raw, hd, e⟩ := hd
    exact ⟨raw, by simpa only [Declared, e1, e2] using hd, e⟩
  rw [launchConfig_declared hd']
  decide

/-- The second worker opens `C:\d\j`, to change it; the first, to read it. -/
def ntChanges : WinIPCRequest := .ntCreateFile 0x102 c!"\\??\\C:\\d\\j" 0 0 7 1 0 []
def ntReads : WinIPCRequest := .ntCreateFile 1 c!"\\??\\C:\\d\\j" 0 0 7 1 0 []
/-- The second worker makes the key `HKEY_LOCAL_MACHINE\k\n`, the first reads it. -/
def keyMakes : WinIPCRequest := .ntCreateKey 2 c!"\\REGISTRY\\MACHINE\\k\\n" 0 none 0 true
def keyReads : WinIPCRequest := .ntCreateKey 1 c!"\\REGISTRY\\MACHINE\\k\\n" 0 none 0 false
def asksMore (j : Nat) (r : WinIPCRequest) (value handle : BitVec 64) (object : Nat) : WholeWinTurn :=
  .recv j (.message (winDemoBytes r none)) ⟨⟨0, 1, 0, handle, object⟩, some value, true⟩

/-- The second worker asks for `C:\d\j`, then the first asks for it, and for `C:\d\j\f`; the second for a key, then the first for the
same. -/
def twoWinSchedule : List WholeWinTurn :=
  List.replicate 8 (.step 0) ++ List.replicate 17 (.step 1) ++ List.replicate 9 (.step 0) ++
    [greets 0, .serve 0, .serve 0, greets 1, .serve 1, .serve 1, asksFor 1 ntChanges 60 50, .serve 1, .serve 1, .serve 1, .serve 1,
     asksFor 0 ntReads 64 60, .serve 0, .serve 0, .serve 0, .serve 0, asksMore 0 ntThrough 0x28 64 70, .serve 0, .serve 0, .serve 0, .serve 0,
     asksMore 1 keyMakes 0x24 68 80, .serve 1, .serve 1, .serve 1, .serve 1, asksMore 0 keyReads 0x24 72 90, .serve 0, .serve 0, .serve 0, .serve 0]

def twoWinEnd : List WholeWinEvent × WholeWin := twoWinSchedule.foldl (wholeWinTurn false) twoWinMade

theorem winTurns_none {k : Nat} (l : List WholeWinTurn) (hl : WholeWinTurn.step k ∉ l) :
    ∀ x : List WholeWinEvent × WholeWin, x.2.threads k = none → (l.foldl (wholeWinTurn false) x).2.threads k = none := by
  induction l with
  | nil => exact fun x h => h
  | cons a l ih =>
    intro x h
    apply ih (fun hm => hl (List.mem_cons_of_mem _ hm))
    cases a with
    | step j =>
      have hj : k ≠ j := fun e => hl (e ▸ List.mem_cons_self ..)
      simp only [wholeWinTurn]
      repeat' split
      all_goals first | exact h | (simp only [WholeWin.create, if_neg hj]; exact h)
    | recv j inc os =>
      simp only [wholeWinTurn]
      split
      · exact h
      · rename_i th hx
        have hj : k ≠ j := by rintro rfl; rw [h] at hx; cases hx
        split
        · simp only [WholeWin.received, if_neg hj]; exact h
        · exact h
    | serve j =>
      simp only [wholeWinTurn]
      split
      · exact h
      · rename_i th hx
        have hj : k ≠ j := by rintro rfl; rw [h] at hx; cases hx
        split
        · simp only [WholeWin.served, if_neg hj]; exact h
        · exact h

theorem twoWin_none {j : Nat} (hj : j ≠ 0 ∧ j ≠ 1) : twoWinEnd.2.threads j = none := by
  unfold twoWinEnd
  refine winTurns_none (k := j) twoWinSchedule ?_ twoWinMade rfl
  simp [twoWinSchedule, greets, asksFor, asksMore, hj.1, hj.2]

theorem twoWin_exec : NoWinWorkers noWinWorkers ∧ WholeWinExec false DeclaredHandle noWinWorkers twoWinEnd.1 twoWinEnd.2 ∧
    WinRulesAre plainOs twoWinRules twoWinEnd.2 twoWinEnd.1 := by
  refine ⟨noWinWorkers_ok, wholeWinTurns_exec false noWinWorkers _ _ twoWinMade_exec, fun j th ht => ?_⟩
  by_cases h0 : j = 0
  · subst h0
    exact ⟨_, _, _, (wholeWinTurns_prefix _ _).subset (List.mem_cons_self ..)⟩
  · by_cases h1 : j = 1
    · subst h1
      exact ⟨_, _, _, (wholeWinTurns_prefix _ _).subset (List.mem_cons_of_mem _ (List.mem_cons_self ..))⟩
    · rw [twoWin_none ⟨h0, h1⟩] at ht; cases ht

/-- What is done for both. -/
def twoWinTrace (j : Nat) : List WinAction :=
  if j = 0 then
    [.sent (.initialization (twoWinPolicy 0)) none,
     .called (.createFile 1 (utf16 c!"\\??\\C:\\d\\j") 0 0x80 7 1 0x200000 []) ⟨0, 1, 0, 64, 60⟩, .sent (.ntCreateFile 1 0) (some (0x20, 60)),
     .called (.createFile 1 (utf16 c!"\\??\\C:\\d\\j\\f") 0 0x80 7 1 0x200000 []) ⟨0, 1, 0, 64, 70⟩, .sent (.ntCreateFile 1 0) (some (0x28, 70)),
     .called (.openKey 1 (utf16 c!"\\REGISTRY\\MACHINE\\k\\n")) ⟨0, 1, 0, 72, 90⟩, .sent (.ntCreateKey 2 0) (some (0x24, 90))]
  else if j = 1 then
    [.sent (.initialization (twoWinPolicy 1)) none,
     .called (.createFile 0x102 (utf16 c!"\\??\\C:\\d\\j") 0 0x80 7 1 0x200000 []) ⟨0, 1, 0, 60, 50⟩, .sent (.ntCreateFile 1 0) (some (0x20, 50)),
     .called (.createKey 2 (utf16 c!"\\REGISTRY\\MACHINE\\k\\n") 0 none 0) ⟨0, 1, 0, 68, 80⟩, .sent (.ntCreateKey 0 0) (some (0x24, 80))]
  else []

theorem twoWin_traces : (twoWinEnd.2.threads 0).map (·.trace) = some (twoWinTrace 0) ∧
    (twoWinEnd.2.threads 1).map (·.trace) = some (twoWinTrace 1) := by
  decide +kernel

theorem twoWin_events {T : Type} {es : List (SharedEvent T)} (h : ∀ j, winDoneFor j es = twoWinTrace j) : WinEventsOf twoWinEnd.2 es := by
  intro j
  rw [h j]
  by_cases h0 : j = 0
  · subst h0
    cases ht : twoWinEnd.2.threads 0 with
    | none => have := twoWin_traces.1; rw [ht] at this; cases this
    | some th => have := twoWin_traces.1; rw [ht] at this; exact (Option.some.inj this).symm
  · by_cases h1 : j = 1
    · subst h1
      cases ht : twoWinEnd.2.threads 1 with
      | none => have := twoWin_traces.2; rw [ht] at this; cases this
      | some th => have := twoWin_traces.2; rw [ht] at this; exact (Option.some.inj this).symm
    · rw [twoWin_none ⟨h0, h1⟩]
      simp [twoWinTrace, h0, h1]

/-- Names in a message, computed. -/
def plainEvent : WholeWinEvent → Bool
  | .recv _ inc _ _ =>
    match winRequest inc with
    | some (.ntCreateFile _ path _ _ _ _ options _) => decide ((utf16 path).length < 32768) && decide (options &&& 0x2000 = 0)
    | some (.ntCreateKey _ path _ _ _ _) => decide ((utf16 path).length < 32768)
    | _ => true
  | _ => true

theorem plain_of {ls : List WholeWinEvent} (h : ls.all plainEvent = true) : AllPlainNames ls ∧ AllShortKeyNames ls := by
  have mem : ∀ j, ∀ i ∈ winHeardBy j ls, ∃ s, WholeWinEvent.recv j i.1 i.2 s ∈ ls := by
    intro j i hi
    obtain ⟨e, he, hx⟩ := List.mem_filterMap.1 hi
    cases e with
    | recv k inc os s =>
      simp only at hx
      split at hx
      · rename_i hk
        cases hx
        exact ⟨s, hk ▸ he⟩
      · cases hx
    | _ => cases hx
  constructor
  · intro j i hi access path allocation attributes share disposition options ea hq
    obtain ⟨s, hm⟩ := mem j i hi
    have := List.all_eq_true.1 h _ hm
    simp only [plainEvent, hq, Bool.and_eq_true, decide_eq_true_eq] at this
    exact ⟨this.1, fun x => x this.2⟩
  · intro j i hi access path titleIndex cls options create hq
    obtain ⟨s, hm⟩ := mem j i hi
    have := List.all_eq_true.1 h _ hm
    simpa only [plainEvent, hq, decide_eq_true_eq] using this

theorem twoWin_plain : AllPlainNames twoWinEnd.1 ∧ AllShortKeyNames twoWinEnd.1 := plain_of (by decide +kernel)

/-- C142: the hypotheses are met by an execution in which a worker changes a file and another has it; what is to be in this file as if
it were a directory is not opened. -/
example : ∃ es st, WinEventsOf twoWinEnd.2 es ∧ AllPlainNames twoWinEnd.1 ∧
    (∀ j, NoReparsePoints asciiUpper id (twoWinRules j) (ntDemoTree (.file [7]))) ∧
    ManyNtRun ⟨asciiUpper, fun _ => none, false⟩ (ntDemoTree (.file [7])) es st ∧ st.tree = ntDemoTree (.file [8]) ∧
    st.opened 0 = [⟨6, some (3, c!"j"), 1, 1, 0x200000⟩] ∧ st.opened 1 = [⟨6, some (3, c!"j"), 0x102, 1, 0x200000⟩] := by
  have r1 : ManyNtRun ⟨asciiUpper, fun _ => none, false⟩ (ntDemoTree (.file [7])) _ _ := .start
  have r2 := ManyNtRun.others _ _ 0 (.sent (.initialization (twoWinPolicy 0)) none) r1 (by simp)
  have r3 := ManyNtRun.others _ _ 1 (.sent (.initialization (twoWinPolicy 1)) none) r2 (by simp)
  have r4 := ManyNtRun.creates _ _ 1 0x102 (utf16 c!"\\??\\C:\\d\\j") 0 0x80 7 1 0x200000 [] ⟨0, 1, 0, 60, 50⟩ none r3
  have r5 := ManyNtRun.others _ _ 1 (.sent (.ntCreateFile 1 0) (some (0x20, 50))) r4 (by simp)
  have r6 := ManyNtRun.creates _ _ 0 1 (utf16 c!"\\??\\C:\\d\\j") 0 0x80 7 1 0x200000 [] ⟨0, 1, 0, 64, 60⟩ none r5
  have r7 := ManyNtRun.others _ _ 0 (.sent (.ntCreateFile 1 0) (some (0x20, 60))) r6 (by simp)
  have r8 := ManyNtRun.writes _ _ 1 ⟨6, some (3, c!"j"), 0x102, 1, 0x200000⟩ [8] r7 (by decide +kernel) ⟨1, by simp, by decide⟩
  have r9 := ManyNtRun.creates _ _ 0 1 (utf16 c!"\\??\\C:\\d\\j\\f") 0 0x80 7 1 0x200000 [] ⟨0, 1, 0, 64, 70⟩ none r8
  have r10 := ManyNtRun.others _ _ 0 (.sent (.ntCreateFile 1 0) (some (0x28, 70))) r9 (by simp)
  have r11 := ManyNtRun.others _ _ 1 (.called (.createKey 2 (utf16 c!"\\REGISTRY\\MACHINE\\k\\n") 0 none 0) ⟨0, 1, 0, 68, 80⟩) r10 (by simp)
  have r12 := ManyNtRun.others _ _ 1 (.sent (.ntCreateKey 0 0) (some (0x24, 80))) r11 (by simp)
  have r13 := ManyNtRun.others _ _ 0 (.called (.openKey 1 (utf16 c!"\\REGISTRY\\MACHINE\\k\\n")) ⟨0, 1, 0, 72, 90⟩) r12 (by simp)
  have r14 := ManyNtRun.others _ _ 0 (.sent (.ntCreateKey 2 0) (some (0x24, 90))) r13 (by simp)
  refine ⟨_, _, twoWin_events (fun j => ?_), twoWin_plain.1, fun j => ?_, r14, ?_, ?_, ?_⟩
  · by_cases h0 : j = 0
    · subst h0; rfl
    · by_cases h1 : j = 1
      · subst h1; rfl
      · simp [winDoneFor, twoWinTrace, h0, h1, Ne.symm h0, Ne.symm h1]
  · intro _ _ _ _ i t _ _ _ _ _ hi
    match i, hi with
    | 0, hi => cases hi
    | 1, hi => cases hi
    | 2, hi => cases hi
    | 3, hi => cases hi
    | 4, hi => cases hi
    | 5, hi => cases hi
    | 6, hi => cases hi
    | _ + 7, hi => simp [ntDemoTree] at hi
  all_goals decide +kernel

/-- and by one in which a worker makes a key, sets its values, and another has it. -/
example : ∃ es st, WinEventsOf twoWinEnd.2 es ∧ AllShortKeyNames twoWinEnd.1 ∧
    (∀ j, NoKeyLinks asciiUpper plainOs.sid (twoWinRules j) (keyDemoTree none)) ∧
    ManyKeysRun ⟨asciiUpper, fun _ cs => cs, false⟩ (keyDemoTree none) es st ∧
    st.tree = [⟨[(c!"REGISTRY", 1)], [], none⟩, ⟨[(c!"MACHINE", 2)], [], none⟩, ⟨[(c!"k", 3), (c!"s", 4)], [], none⟩,
        ⟨[(c!"j", 5), (c!"n", 6)], [], none⟩, ⟨[], [1, 2], none⟩, ⟨[], [], none⟩, ⟨[], [9], none⟩] ∧
    st.opened 0 = [⟨6, some (3, c!"n"), 1, false⟩] ∧ st.opened 1 = [⟨6, some (3, c!"n"), 2, true⟩] := by
  have r1 : ManyKeysRun ⟨asciiUpper, fun _ cs => cs, false⟩ (keyDemoTree none) _ _ := .start
  have r2 := ManyKeysRun.others _ _ 0 (.sent (.initialization (twoWinPolicy 0)) none) r1 (by simp) (by simp)
  have r3 := ManyKeysRun.others _ _ 1 (.sent (.initialization (twoWinPolicy 1)) none) r2 (by simp) (by simp)
  have r4 := ManyKeysRun.others _ _ 1 (.called (.createFile 0x102 (utf16 c!"\\??\\C:\\d\\j") 0 0x80 7 1 0x200000 []) ⟨0, 1, 0, 60, 50⟩) r3
    (by simp) (by simp)
  have r5 := ManyKeysRun.others _ _ 1 (.sent (.ntCreateFile 1 0) (some (0x20, 50))) r4 (by simp) (by simp)
  have r6 := ManyKeysRun.others _ _ 0 (.called (.createFile 1 (utf16 c!"\\??\\C:\\d\\j") 0 0x80 7 1 0x200000 []) ⟨0, 1, 0, 64, 60⟩) r5
    (by simp) (by simp)
  have r7 := ManyKeysRun.others _ _ 0 (.sent (.ntCreateFile 1 0) (some (0x20, 60))) r6 (by simp) (by simp)
  have r8 := ManyKeysRun.others _ _ 0 (.called (.createFile 1 (utf16 c!"\\??\\C:\\d\\j\\f") 0 0x80 7 1 0x200000 []) ⟨0, 1, 0, 64, 70⟩) r7
    (by simp) (by simp)
  have r9 := ManyKeysRun.others _ _ 0 (.sent (.ntCreateFile 1 0) (some (0x28, 70))) r8 (by simp) (by simp)
  have r10 := ManyKeysRun.creates _ _ 1 2 (utf16 c!"\\REGISTRY\\MACHINE\\k\\n") 0 none 0 ⟨0, 1, 0, 68, 80⟩ none r9
  have r11 := ManyKeysRun.others _ _ 1 (.sent (.ntCreateKey 0 0) (some (0x24, 80))) r10 (by simp) (by simp)
  have r12 := ManyKeysRun.opens _ _ 0 1 (utf16 c!"\\REGISTRY\\MACHINE\\k\\n") ⟨0, 1, 0, 72, 90⟩ none r11
  have r13 := ManyKeysRun.sets _ _ 1 ⟨6, some (3, c!"n"), 2, true⟩ [9] r12 (by decide +kernel) ⟨1, by simp, by decide⟩
  have r14 := ManyKeysRun.others _ _ 0 (.sent (.ntCreateKey 2 0) (some (0x24, 90))) r13 (by simp) (by simp)
  refine ⟨_, _, twoWin_events (fun j => ?_), twoWin_plain.2, fun j => keyDemo_noLinks _ _ _, r14, ?_, ?_, ?_⟩
  · by_cases h0 : j = 0
    · subst h0; rfl
    · by_cases h1 : j = 1
      · subst h1; rfl
      · simp [winDoneFor, twoWinTrace, h0, h1, Ne.symm h0, Ne.symm h1]
  all_goals decide +kernel

theorem twoWin_not_given {path : Str} (hp : PathOf path [c!"??", c!"C:", c!"s", c!"f"]) (j : Nat) (right : Right) :
    ¬ Given id (twoWinRules j) right path := by
  rintro ⟨c, hc, hg⟩
  refine ntDemo_not_given hp right ⟨c, ?_, hg⟩
  unfold twoWinRules at hc
  split at hc
  · simp only [List.mem_cons, WinCall.fs.injEq, reduceCtorEq, List.not_mem_nil, or_false] at hc
    subst hc; simp [ntDemoRules]
  · split at hc
    · simp only [List.mem_cons, WinCall.fs.injEq, reduceCtorEq, List.not_mem_nil, or_false] at hc
      subst hc; simp [ntDemoRules]
    · cases hc

/-- `C142_left_alone_partial` has its hypotheses met: no rule lets write to `C:\s\f`. -/
example : (ntDemoTree (.dir []))[5]? = some (.file [1, 2]) ∧ ∀ j, ¬ NtMayWrite id id (twoWinRules j) (ntDemoTree (.dir [])) 5 := by
  refine ⟨rfl, ?_⟩
  rintro j ⟨path, cs, hg, hp, hn⟩
  have := ntDemo_secret (.inr rfl) hn
  subst this
  exact twoWin_not_given hp j _ hg

/-- `C142_keys_left_alone_partial` too: none lets write to `HKEY_LOCAL_MACHINE\s`. -/
example : (keyDemoTree none)[4]? = some ⟨[], [1, 2], none⟩ ∧ ∀ j, ¬ KeyMayWrite id plainOs.sid (twoWinRules j) (keyDemoTree none) 4 := by
  refine ⟨rfl, ?_⟩
  rintro j ⟨path, cs, ⟨r, k, hc, hg⟩, hp, hn⟩
  have := keyDemo_secret none hn
  subst this
  refine keyDemo_not_allowed hp (.inr ⟨r, k, ?_, hg⟩)
  unfold twoWinRules at hc
  split at hc
  · simp at hc
  · split at hc
    · simp only [List.mem_cons, WinCall.regWrite.injEq, reduceCtorEq, List.not_mem_nil, or_false, false_or] at hc
      subst hc; simp [keyDemoRules]
    · cases hc

/-! ### What goes wrong -/

/-- C142, full statement, on the files workers have: whatever workers ask for, and do with what they get, each file one has is new or is
named by a path its own rules allow, if no reparse point is on the way at first. -/
def Spec.WinWorkersHaveWhatRulesName (k : NtKernel) : Prop :=
  ∀ (os : WinOs) (full : Str → Str) (h : Nat → List WinCall) (w w' : WholeWin) (ls : List WholeWinEvent)
    (es : List (SharedEvent NtTree)) (fs : NtTree) (st : SharedBy NtTree NtOpened), FullNames os full → NoWinWorkers w →
    WholeWinExec false DeclaredHandle w ls w' → WinRulesAre os h w' ls → WinEventsOf w' es → AllPlainNames ls →
    (∀ j, NoReparsePoints k.upcase full (h j) fs) → ManyNtRun k fs es st → ∀ j, ∀ o ∈ st.opened j,
    ∃ path cs right, PathOf path cs ∧ (List.length fs ≤ o.file ∨ NtNamed k.upcase fs cs o.file) ∧ Given full (h j) right path

/-- C142 is false when workers are let make reparse points: one which may write in `C:\d` makes `C:\d\j` a junction to `C:\s`, and
another, which may only read in `C:\d`, and could not do this itself, is given `C:\s\f`. -/
theorem C142_violated_other_worker :
    (∀ path, ¬ Given id (twoWinRules 0) .write path) ∧ ¬ Spec.WinWorkersHaveWhatRulesName ⟨id, fun _ => none, true⟩ := by
  constructor
  · rintro path ⟨c, hc, hg⟩
    simp only [twoWinRules, if_true, List.mem_cons, WinCall.fs.injEq, reduceCtorEq, List.not_mem_nil, or_false] at hc
    subst hc
    exact absurd hg.1 (by simp)
  intro hall
  have r1 : ManyNtRun ⟨id, fun _ => none, true⟩ (ntDemoTree (.dir [])) _ _ := .start
  have r2 := ManyNtRun.others _ _ 0 (.sent (.initialization (twoWinPolicy 0)) none) r1 (by simp)
  have r3 := ManyNtRun.others _ _ 1 (.sent (.initialization (twoWinPolicy 1)) none) r2 (by simp)
  have r4 := ManyNtRun.creates _ _ 1 0x102 (utf16 c!"\\??\\C:\\d\\j") 0 0x80 7 1 0x200000 [] ⟨0, 1, 0, 60, 50⟩ none r3
  have r5 := ManyNtRun.others _ _ 1 (.sent (.ntCreateFile 1 0) (some (0x20, 50))) r4 (by simp)
  have r6 := ManyNtRun.creates _ _ 0 1 (utf16 c!"\\??\\C:\\d\\j") 0 0x80 7 1 0x200000 [] ⟨0, 1, 0, 64, 60⟩ none r5
  have r7 := ManyNtRun.others _ _ 0 (.sent (.ntCreateFile 1 0) (some (0x20, 60))) r6 (by simp)
  have r8 := ManyNtRun.relinks _ _ 1 ⟨6, some (3, c!"j"), 0x102, 1, 0x200000⟩ [c!"??", c!"C:", c!"s"] r7 (by decide +kernel) rfl
    ⟨1, by simp, by decide⟩
  have r9 := ManyNtRun.creates _ _ 0 1 (utf16 c!"\\??\\C:\\d\\j\\f") 0 0x80 7 1 0x200000 [] ⟨0, 1, 0, 64, 70⟩ none r8
  have r10 := ManyNtRun.others _ _ 0 (.sent (.ntCreateFile 1 0) (some (0x28, 70))) r9 (by simp)
  have r11 := ManyNtRun.others _ _ 1 (.called (.createKey 2 (utf16 c!"\\REGISTRY\\MACHINE\\k\\n") 0 none 0) ⟨0, 1, 0, 68, 80⟩) r10 (by simp)
  have r12 := ManyNtRun.others _ _ 1 (.sent (.ntCreateKey 0 0) (some (0x24, 80))) r11 (by simp)
  have r13 := ManyNtRun.others _ _ 0 (.called (.openKey 1 (utf16 c!"\\REGISTRY\\MACHINE\\k\\n")) ⟨0, 1, 0, 72, 90⟩) r12 (by simp)
  have r14 := ManyNtRun.others _ _ 0 (.sent (.ntCreateKey 2 0) (some (0x24, 90))) r13 (by simp)
  obtain ⟨path, cs, right, hp, hn, hg⟩ := hall plainOs id twoWinRules _ _ _ _ _ _ plainOs_full twoWin_exec.1 twoWin_exec.2.1 twoWin_exec.2.2
    (twoWin_events (fun j => by
      by_cases h0 : j = 0
      · subst h0; rfl
      · by_cases h1 : j = 1
        · subst h1; rfl
        · simp [winDoneFor, twoWinTrace, h0, h1, Ne.symm h0, Ne.symm h1])) twoWin_plain.1 (fun j => ntDemo_noReparsePoints _ _ _) r14 0
    ⟨5, some (4, c!"f"), 1, 1, 0x200000⟩ (by decide +kernel)
  rcases hn with hn | hn
  · have hlen : List.length (ntDemoTree (.dir [])) = 7 := rfl
    have : 7 ≤ 5 := hlen ▸ hn
    omega
  · have := ntDemo_secret (.inr rfl) hn
    subst this
    exact twoWin_not_given hp 0 right hg

end Iris
