import Verif.Lemmas.Confined
/-!
# C146: a program which stays within its rules does not see that it is confined
-/
namespace Iris
open Spec

/-- C146: whatever the program, what it sees and what it does are the same with and without the sandbox, if its calls are `open` and `openat` of
any path but the empty one and `stat` and `chdir` of absolute paths, and all of them are allowed by its rules when it is not confined. Missing
from the full statement: the other calls. -/
theorem C146_invisible_partial [Target] (abi : Abi) : Invisible abi Plain := by
  intro h audit replace getcwd w cs hg
  induction cs generalizing w with
  | nil => intro _ _ _ _; exact ⟨rfl, rfl, rfl⟩
  | cons c cs ih =>
    intro hrun htab hcs ⟨ha, hp, hrest⟩
    obtain ⟨h1, h2, h3, h4⟩ := turn_within abi h audit replace getcwd hg w c (hcs c (by simp)) hrun htab ha hp
    have := ih _ h1 (by rw [h2]; exact htab) (fun c' h' => hcs c' (List.mem_cons_of_mem _ h')) (by rw [h4]; exact hrest)
    simp only [List.map_cons, Confined.run, Bare.run]
    rw [h4] at this
    exact ⟨by rw [h3, this.1], this.2⟩

/-- C146: a call its rules do not allow fails with `EACCES`; files and working directory are as they were. -/
theorem C146_refused [Target] (abi : Abi) (h : List Call) (audit : Bool) (replace : Bytes → Str) (getcwd : FileTree → Nat → Option Str)
    (hg : Getcwd getcwd) (w : Confined) (c : PathTurn) (k : Kind) (path name : Str) (hc : TurnServed (c, k, path))
    (hrun : w.broker.status = .running) (htab : w.broker.table.length < 2 ^ 31) (hcwd : getcwd (c.others w.tree) w.cwd = some name)
    (hlen : messageSize (utf8 (asked name path k)).length (flagsOf k) ≤ 65536) (hno : ¬ OpenAllowed h (asked name path k) (flagsOf k)) :
    (w.turn abi (Policy.nothingAllowed.calls h) audit replace getcwd c).1 = .error 13 ∧
    (w.turn abi (Policy.nothingAllowed.calls h) audit replace getcwd c).2.tree = c.others w.tree ∧
    (w.turn abi (Policy.nothingAllowed.calls h) audit replace getcwd c).2.cwd = w.cwd :=
  have hreq : requestOf name path k = .openFile (asked name path k) (flagsOf k) := by cases k <;> rfl
  (turn_served abi (Policy.nothingAllowed.calls h) audit replace getcwd w c k path name hc hrun htab (.inr hcwd) (hg _ _ _ hcwd).noNul _ _ hreq
    hlen).2.2.1 fun hgr => hno ((C02_file_open_exact h _ _).1 hgr)

/-- A chdir whose request does not fit into a message leaves the working directory as it is. -/
theorem chdir_too_long [Target] (abi : Abi) (p : Policy) (audit : Bool) (replace : Bytes → Str) (getcwd : FileTree → Nat → Option Str)
    (w : Confined) (c : PathTurn) (path : Str) (hc : PathCall c.mem c.regs .chdir path)
    (hlen : ¬ messageSize (utf8 path).length 0x200000#32 ≤ 65536) :
    (w.turn abi p audit replace getcwd c).2.cwd = w.cwd := by
  have hn : sendRequest (.openFile path O_PATH) = none := by
    refine if_neg ?_
    rw [request_size]
    exact hlen
  have hr : ∀ io : WorkerIo, sendRecv abi c.table (.openFile path O_PATH) io = (c.table, none) := by
    intro io
    simp only [sendRecv, hn]
    rfl
  have hh : ∀ io : WorkerIo, handleTrap abi audit replace c.mem c.table c.regs io =
      { table := c.table, sent := some (.openFile path O_PATH), ret := .panic } := by
    intro io
    rw [trap_eq abi audit replace c.table io hc]
    simp only [handlerOf, handleByPath, getFdForPath, hr]
  unfold Confined.turn
  simp only [hh, withBroker, hn]
  exact if_neg fun h => nomatch h.2

/-- C146: the working directory changes only by a successful `chdir`, and only to the directory its path leads to, which the rules allow. -/
theorem C146_where [Target] (abi : Abi) (h : List Call) (audit : Bool) (replace : Bytes → Str) (getcwd : FileTree → Nat → Option Str)
    (w : Confined) (c : PathTurn) (k : Kind) (path : Str) (hc : TurnServed (c, k, path)) (hrun : w.broker.status = .running)
    (htab : w.broker.table.length < 2 ^ 31) :
    let x := w.turn abi (Policy.nothingAllowed.calls h) audit replace getcwd c
    x.2.cwd = w.cwd ∨ k = .chdir ∧ x.1 = .done ∧ OpenAllowed h path 0x200000#32 ∧ lookup ⟨c.others w.tree, w.cwd⟩ path = .ok x.2.cwd ∧
      ∃ entries parent, (c.others w.tree)[x.2.cwd]? = some (.dir entries parent) := by
  intro x
  by_cases hk : k = .chdir
  · subst hk
    by_cases hlen : messageSize (utf8 path).length 0x200000#32 ≤ 65536
    case neg => exact .inl (chdir_too_long abi _ audit replace getcwd w c path hc.says hlen)
    obtain ⟨_, _, h3, h4⟩ := turn_served abi (Policy.nothingAllowed.calls h) audit replace getcwd w c .chdir path [] hc hrun htab
      (.inl (.inr fun _ h => by cases h)) (by simp) path 0x200000#32 rfl hlen
    by_cases hg : Grants (Policy.nothingAllowed.calls h) path 0x200000#32
    · have hall := (C02_file_open_exact h _ _).1 hg
      have h5 := h4 hg (fun _ h => by cases h)
      have e1 := congrArg (fun y : Outcome × FileTree × Nat => y.1) h5
      have e3 := congrArg (fun y : Outcome × FileTree × Nat => y.2.2) h5
      simp only at e1 e3
      change x.1 = _ at e1
      change x.2.cwd = _ at e3
      cases hr : c.refuse with
      | some e =>
        left
        rw [e3, hr]
        rfl
      | none =>
        obtain ⟨hs, cs, hd, _⟩ := hall
        have ha : path.head? = some '/' := by
          have := hd.startsWith
          cases path with
          | nil => simp [startsWith, stripPrefix] at this
          | cons a r =>
            by_cases haa : a = '/'
            · subst haa; rfl
            · simp [startsWith, stripPrefix, haa] at this
        have hne : path ≠ [] := by rintro rfl; cases ha
        have hop : kOpen (c.others w.tree) path 0x200000#32 none = (lookup ⟨c.others w.tree, w.cwd⟩ path, c.others w.tree) := by
          have := kOpen_native (w := ⟨c.others w.tree, w.cwd⟩) (name := []) 0x200000#32 hne (.inl ha)
          rw [absolute_absolute ha] at this
          rw [← native_path]
          exact this
        rw [hr, hop] at e1 e3
        simp only [comes] at e1 e3
        cases hl : lookup ⟨c.others w.tree, w.cwd⟩ path with
        | error e =>
          left
          rw [e3, hl]
        | ok i =>
          rw [hl] at e1 e3
          simp only at e1 e3
          cases hi : (c.others w.tree)[i]? with
          | none => left; rw [e3, hi]
          | some n =>
            cases n with
            | link t => left; rw [e3, hi]
            | file b => left; rw [e3, hi]
            | dir en pa =>
              rw [hi] at e1 e3
              simp only at e1 e3
              right
              exact ⟨rfl, e1, (C02_file_open_exact h _ _).1 hg, by rw [e3], en, pa, by rw [e3]; exact hi⟩
    · exact .inl (h3 hg).2.2
  · left
    have hnr : c.regs.nr ≠ SYS_chdir := by
      have hsays : PathCall c.mem c.regs k path := hc.says
      cases hsays with
      | «open» _ h1 => rw [h1]; decide
      | openat _ h1 => rw [h1]; decide
      | access _ h1 => rw [h1]; decide
      | stat _ h1 => rw [h1]; decide
      | chdir _ h1 => exact absurd rfl hk
    show (Confined.turn ..).2.cwd = _
    unfold Confined.turn
    simp only
    split
    · exact if_neg fun h => hnr h.1
    · rfl

/-! ## Witnesses -/

/-- `/tmp` with `notes.txt` and `sub`, which has `a`; `/etc` with `shadow`; `/secret`. -/
def confTree : FileTree :=
  [.dir [(c!"tmp", 1), (c!"etc", 3), (c!"secret", 7)] 0, .dir [(c!"notes.txt", 2), (c!"sub", 4)] 0, .file [1], .dir [(c!"shadow", 5)] 0,
    .dir [(c!"a", 6)] 1, .file [2], .file [3], .file [4], .dir [] 0]

def confGetcwd (fs : FileTree) (d : Nat) : Option Str :=
  if fs = confTree then
    if d = 0 then some c!"/" else if d = 1 then some c!"/tmp" else if d = 4 then some c!"/tmp/sub" else none
  else none

theorem conf_getcwd : Getcwd confGetcwd := by
  intro fs d s h
  simp only [confGetcwd] at h
  split at h
  · rename_i hfs
    subst hfs
    have n1 : Named confTree [c!"tmp"] 1 := .entry [] 0 _ _ _ _ .root rfl rfl
    split at h
    · rename_i hd; subst hd; cases h
      exact ⟨[], .root, by simp, ⟨_, _, rfl⟩, rfl⟩
    · split at h
      · rename_i hd; subst hd; cases h
        exact ⟨[c!"tmp"], n1, by simp [GoodComponent], ⟨_, _, rfl⟩, rfl⟩
      · split at h
        · rename_i hd; subst hd; cases h
          exact ⟨[c!"tmp", c!"sub"], .entry [c!"tmp"] 1 _ _ _ _ n1 rfl rfl, by simp [GoodComponent], ⟨_, _, rfl⟩, rfl⟩
        · cases h
  · cases h

def confMemory : Memory := fun a =>
  if a = 1#64 then some (utf8 c!"notes.txt") else if a = 2#64 then some (utf8 c!"/tmp/sub") else if a = 3#64 then some (utf8 c!"a")
  else if a = 4#64 then some (utf8 c!"/tmp/notes.txt") else if a = 5#64 then some (utf8 c!"/etc/shadow") else if a = 6#64 then some []
  else if a = 7#64 then some (utf8 c!"secret") else none

/-- The system call `nr` with the string at `a`, while nobody else changes files. -/
def confTurn (nr a : BitVec 64) : PathTurn := ⟨id, demoTable, confMemory, demoCall nr a 0, none, demoIo, demoOs⟩

def confStart : Confined := ⟨confTree, 1, demoBroker⟩

/-- `open("notes.txt")` in `/tmp`, `chdir("/tmp/sub")`, `open("a")`, `stat("/tmp/notes.txt")`. -/
def confCalls : List (PathTurn × Kind × Str) :=
  [(confTurn 2 1, .open 0#32, c!"notes.txt"), (confTurn 80 2, .chdir, c!"/tmp/sub"), (confTurn 2 3, .open 0#32, c!"a"),
    (confTurn 4 4, .stat, c!"/tmp/notes.txt")]

theorem conf_served (nr a : BitVec 64) (k : Kind) (path : Str) (h : PathCall confMemory (demoCall nr a 0) k path) :
    TurnServed (confTurn nr a, k, path) :=
  ⟨h, rfl, rfl, show 2 ≤ demoIo.canInstall by decide, show demoTable.length < 2 ^ 31 by decide, fun e h => by cases h⟩

theorem conf_calls_served : ∀ c ∈ confCalls, TurnServed c := by
  intro c hc
  simp only [confCalls, List.mem_cons, List.not_mem_nil, or_false] at hc
  rcases hc with rfl | rfl | rfl | rfl
  · exact conf_served _ _ _ _ (.open _ rfl rfl (by decide))
  · exact conf_served _ _ _ _ (.chdir _ rfl rfl (by decide))
  · exact conf_served _ _ _ _ (.open _ rfl rfl (by decide))
  · exact conf_served _ _ _ _ (.stat _ rfl rfl (by decide))

theorem conf_allowed {path : Str} {cs rest : List Str} (hd : Denotes path cs) (hcs : cs = c!"tmp" :: rest) (flags : BitVec 32)
    (hs : @Supported x86_64 flags) (hw : ¬ AsksWrite flags) : @OpenAllowed x86_64 demoRules path flags := by
  have hr : ReadAllowed demoRules cs := by
    refine ⟨_, List.mem_singleton.2 rfl, ?_⟩
    exact ⟨[c!"tmp"], ⟨by simp, by simp [GoodComponent], .inl rfl⟩, rest, hcs.symm⟩
  exact ⟨hs, cs, hd, .inl hr, fun _ => hr, fun h => absurd h hw⟩

theorem conf_zero : @Supported x86_64 0#32 := by intro i _ h; simp at h

theorem conf_path : @Supported x86_64 0x200000#32 := by
  have := (@C02_file_open_exact x86_64 [.fs (.dirRead c!"/tmp")] c!"/tmp" 0x200000#32).1 (by decide +kernel)
  exact this.1

theorem conf_reads : ¬ AsksWrite 0#32 := fun h => absurd h.2 (by simp [Has])
theorem conf_paths : ¬ AsksWrite 0x200000#32 := fun h => h.1 (by unfold Has; decide)

/-- The hypotheses of `C146_invisible_partial` are met. -/
theorem conf_within : @Within x86_64 Plain demoRules confGetcwd ⟨confTree, 1⟩ confCalls := by
  refine ⟨⟨c!"/tmp", .inr rfl, ?_, messageSize_short _ (by decide)⟩, by simp [Plain], ?_⟩
  · exact conf_allowed (cs := [c!"tmp", c!"notes.txt"]) ⟨by simp, by simp [GoodComponent], .inl rfl⟩ rfl _ conf_zero conf_reads
  refine ⟨⟨c!"/tmp", .inl rfl, ?_, messageSize_short _ (by decide)⟩, rfl, ?_⟩
  · exact conf_allowed (cs := [c!"tmp", c!"sub"]) ⟨by simp, by simp [GoodComponent], .inl rfl⟩ rfl _ conf_path conf_paths
  refine ⟨⟨c!"/tmp/sub", .inr rfl, ?_, messageSize_short _ (by decide)⟩, by simp [Plain], ?_⟩
  · exact conf_allowed (cs := [c!"tmp", c!"sub", c!"a"]) ⟨by simp, by simp [GoodComponent], .inl rfl⟩ rfl _ conf_zero conf_reads
  refine ⟨⟨c!"/", .inl rfl, ?_, messageSize_short _ (by decide)⟩, rfl, trivial⟩
  exact conf_allowed (cs := [c!"tmp", c!"notes.txt"]) ⟨by simp, by simp [GoodComponent], .inl rfl⟩ rfl _ conf_path conf_paths

/-- What this program sees: `notes.txt`, success, `a`, `notes.txt`; it ends in `/tmp/sub`. -/
example : (@Confined.run x86_64 .lp64 (Policy.nothingAllowed.calls demoRules) false (fun _ => []) confGetcwd confStart
    (confCalls.map Prod.fst)).1 = [.file 2, .done, .file 6, .file 2] ∧
    (Bare.run ⟨confTree, 1⟩ confCalls).1 = [.file 2, .done, .file 6, .file 2] ∧ (Bare.run ⟨confTree, 1⟩ confCalls).2.cwd = 4 := by
  decide +kernel

/-- `stat("/etc/shadow")` is refused. -/
example : (@Confined.turn x86_64 .lp64 (Policy.nothingAllowed.calls demoRules) false (fun _ => []) confGetcwd confStart (confTurn 4 5)).1 =
    .error 13 := by decide +kernel

/-- C146, the full statement, does not hold: `open("")` fails with `ENOENT`; confined, it opens the working directory. -/
theorem C146_violated : ¬ @Invisible x86_64 .lp64 (fun _ _ => True) := by
  intro hinv
  have := hinv demoRules false (fun _ => []) confGetcwd confStart [(confTurn 2 6, .open 0#32, [])] conf_getcwd rfl (by decide) ?_ ?_
  · have h1 := this.1
    revert h1
    decide +kernel
  · intro c hc
    rw [List.mem_singleton.1 hc]
    exact conf_served _ _ _ _ (.open _ rfl rfl (by decide))
  · refine ⟨⟨c!"/tmp", .inr rfl, ?_, messageSize_short _ (by decide)⟩, trivial, trivial⟩
    exact conf_allowed (cs := [c!"tmp"]) ⟨by simp, by simp [GoodComponent], .inr rfl⟩ rfl _ conf_zero conf_reads

/-- C146: in a working directory which has been removed no path but absolute ones leads anywhere; confined, `open("secret")` opens `/secret`
there if the rules allow it. -/
theorem C146_violated_removed :
    (Bare.turn ⟨confTree, 8⟩ (confTurn 2 7, .open 0#32, c!"secret")).1 = .error 2 ∧
    (@Confined.turn x86_64 .lp64 (Policy.nothingAllowed.calls [.fs (.fileRead c!"/secret")]) false (fun _ => []) confGetcwd
      ⟨confTree, 8, demoBroker⟩ (confTurn 2 7)).1 = .file 7 := by
  decide +kernel

end Iris
