import Verif.Lemmas.WinLaunch
/-!
# C102–C105: creation of a Windows worker
-/
namespace Iris
open Spec

/-! ## C102: a worker finds its channel -/

theorem winStrings_entry (e cur rest : Bytes) (h : (0 : UInt8) ∉ e) :
    winStrings cur (e ++ rest) = winStrings (cur ++ e) rest := by
  induction e generalizing cur with
  | nil => simp
  | cons b e ih =>
    have hb : b ≠ 0 := fun hb => h (by simp [hb])
    rw [List.cons_append, winStrings, if_neg hb, ih _ fun hh => h (List.mem_cons_of_mem _ hh)]
    simp

theorem strings_prefix (l : List Bytes) (rest : Bytes) (h : ∀ e ∈ l, e ≠ [] ∧ (0 : UInt8) ∉ e) :
    winStrings [] (l.flatMap (· ++ [0]) ++ rest) = l ++ winStrings [] rest := by
  induction l with
  | nil => rfl
  | cons e l ih =>
    have ih := ih fun x hx => h x (List.mem_cons_of_mem _ hx)
    rw [List.flatMap_cons, List.append_assoc, List.append_assoc, winStrings_entry _ _ _ (h e (by simp)).2]
    rw [List.nil_append, List.cons_append, List.nil_append, winStrings, if_pos rfl, if_neg (h e (by simp)).1, ih]
    rfl

theorem winValueOf_append (n v : Bytes) : winValueOf n (n ++ eqSign :: v) = some v := by
  induction n with
  | nil => simp [winValueOf]
  | cons b n ih => simp [winValueOf, ih]

theorem winValueOf_some {n e v : Bytes} (h : winValueOf n e = some v) :
    (e.take (n.length + 1)).map upperByte = n.map upperByte ++ [61] := by
  induction n generalizing e with
  | nil =>
    cases e with
    | nil => simp [winValueOf] at h
    | cons b e =>
      simp only [winValueOf] at h
      split at h
      · rename_i hb; subst hb; rfl
      · cases h
  | cons a n ih =>
    cases e with
    | nil => simp [winValueOf] at h
    | cons b e =>
      simp only [winValueOf] at h
      split at h
      · rename_i hb; simp [ih h, hb]
      · cases h

theorem winGetenv_append {n : Bytes} (l rest : List Bytes) (v x : Bytes)
    (h : ∀ e ∈ l, winValueOf n e = none) (hv : winValueOf n v = some x) : winGetenv n (l ++ v :: rest) = some x := by
  induction l with
  | nil => simp [winGetenv, hv]
  | cons e l ih =>
    rw [List.cons_append, winGetenv, h e (by simp)]
    exact ih fun e he => h e (List.mem_cons_of_mem _ he)

theorem channelVar_plain (n : Nat) : ipcHandleVar n ≠ [] ∧ (0 : UInt8) ∉ ipcHandleVar n := by
  rw [ipcHandleVar_eq]
  refine ⟨by simp, ?_⟩
  simp only [List.mem_append, List.mem_cons, not_or]
  exact ⟨by decide, by decide, (utf8_plain _ (dec_plain n)).2⟩

/-- What a worker reads from its environment. -/
theorem read_channel (sys : Str → Option Str) (envp : List Bytes) (b : BitVec 64)
    (he : ∀ e ∈ envp, e ≠ [] ∧ (0 : UInt8) ∉ e ∧ ¬ NamesChannel e) :
    winReadIpcHandle (envBlock (mergeEnv sys (envp ++ [ipcHandleVar b.toNat]))) = some b := by
  obtain ⟨added, ha, -⟩ := C61_environment_partial sys (envp ++ [ipcHandleVar b.toNat])
  have hstr : ∃ rest, winStrings [] (envBlock (mergeEnv sys (envp ++ [ipcHandleVar b.toNat]))) =
      envp ++ ipcHandleVar b.toNat :: rest := by
    rw [ha, envBlock, List.flatMap_append, List.append_assoc, strings_prefix]
    · exact ⟨_, by simp; rfl⟩
    · intro e hm
      rcases List.mem_append.1 hm with hm | hm
      · exact ⟨(he e hm).1, (he e hm).2.1⟩
      · rw [List.mem_singleton.1 hm]; exact channelVar_plain _
  obtain ⟨rest, hstr⟩ := hstr
  have hg : winGetenv (utf8 IPC_HANDLE_ENV_NAME) (envp ++ ipcHandleVar b.toNat :: rest) = some (utf8 (dec b.toNat)) := by
    refine winGetenv_append _ _ _ _ (fun e hm => ?_) ?_
    · cases hv : winValueOf (utf8 IPC_HANDLE_ENV_NAME) e with
      | none => rfl
      | some v =>
        refine absurd ?_ (he e hm).2.2
        have hlen : (utf8 IPC_HANDLE_ENV_NAME).length + 1 = 19 := by decide
        have := winValueOf_some hv
        rw [hlen] at this
        refine Eq.trans this ?_
        decide +kernel
    · rw [ipcHandleVar_eq]; exact winValueOf_append _ _
  rw [winReadIpcHandle, hstr, hg, Option.bind_some, fromUtf8_utf8, Option.bind_some, parseU64_dec _ b.isLt]
  simp

theorem get_filter {t : HTable} {f : BitVec 64 × Nat → Bool} {h : BitVec 64} {o : Nat} (hf : f (h, o) = true) :
    HTable.get (List.filter f ((h, o) :: t)) h = some o := by
  rw [List.filter_cons_of_pos hf, HTable.get_cons]

/-- Handles in the list are those the policy names. -/
theorem listed_iff {inherited : List (BitVec 64)} {call : CreateProcessCall} (hg : GoodCall inherited call)
    {h : BitVec 64} (hm : h ∈ inherited) :
    (call.attributes.all fun
      | .handleList l => l.contains h
      | _ => true) = true := by
  rw [List.all_eq_true]
  intro a ha
  cases a with
  | handleList l =>
    have := hg.2.2 _ ha
    simp only [List.contains_iff_mem]
    exact (this.2 h).2 hm
  | _ => rfl

theorem mem_inherited {l : List Nat} {b : BitVec 64} (h : b.toNat ∈ l) : b ∈ l.map (BitVec.ofNat 64) :=
  List.mem_map.2 ⟨_, h, by simp⟩

/-- **C102**, as far as it is true. When `Worker::new` gives a worker, one process was created, and the handle it finds in its
environment is the other end of the pipe that the thread serving it uses; nobody else has a handle to that end. The thread
sends handles to that process. Required: no entry of the configured environment is empty, and none has the name of
the channel's variable, in whatever case. -/
theorem C102_attached_partial (os : LaunchOs) (p : Policy) (c : ProcessConfig) (w w' : WinWorld) (q : WinProcess)
    (pipe remote : BitVec 64) (hw : WorldOk w) (hr : ∀ k, ∀ a ∈ othersActs (os.pipes k), LeavesAlone os.pid a)
    (he : ∀ e ∈ c.envp, e ≠ [] ∧ (0 : UInt8) ∉ e ∧ ¬ NamesChannel e)
    (h : winWorkerNew os p c w = (.worker q pipe remote, w')) :
    ∃ child value, w'.children = w.children ++ [child] ∧ winReadIpcHandle child.environment = some value ∧
      Attached w' child pipe value ∧ w'.pw.handles.get remote = some child.object := by
  obtain ⟨pw, b, p', c', cmdline, call, s, x, y, hc, hp, -, hcr, hlast, fh, hfr, n1, n2, n3, e1, e2, -, -, e3⟩ :=
    launch_worker h
  obtain ⟨rfl, -, hin, -, hinh, -⟩ := winPrepare_ok hp
  obtain ⟨call', hcl, hgood, -⟩ := C62_protections _ _ _ _ _ _ hcr
  cases hlast.symm.trans hcl
  have hj := (C100_joined_partial _ _ hr _ _ _ _ _ _ hc).2 _ _ rfl
  obtain ⟨i, hi, hi1, z, hi2, hi3⟩ := hj
  rw [fh.handles, HTable.get_cons_ne _ _ (Ne.symm fh.ne), HTable.get_cons] at hi1
  rw [fh.handles, HTable.get_cons] at hi3
  cases hi3
  refine ⟨_, b, e3, ?_, ⟨i, ?_, ?_, y, hi2, ?_, ?_, ?_⟩, ?_⟩
  · exact read_channel os.sys c.envp b he
  · rw [e2, List.mem_filter]
    refine ⟨hi, ?_⟩
    have := fh.ltY
    simp only [Option.some.injEq] at hi1
    simp only [ne_eq, Option.some.injEq, decide_not, Bool.not_eq_true', decide_eq_false_iff_not]
    omega
  · rw [e1, HTable.get_cons_ne _ _ n2, HTable.get_cons_ne _ _ fh.neA, HTable.get_cons]
    exact hi1
  · simp only [childOf, childHandles, withChannel, fh.handles]
    refine get_filter ?_
    simp only [Bool.and_eq_true]
    exact ⟨by simp, listed_iff hgood (mem_inherited ((hin _).2 (.inr (.inl rfl))))⟩
  · intro e hm
    rw [e1] at hm
    have k1 := fh.ltN
    have k2 := fh.ltY
    have k3 := fh.leX
    rcases List.mem_cons.1 hm with rfl | hm
    · simp only; omega
    rcases List.mem_cons.1 hm with rfl | hm
    · simp only; omega
    rcases List.mem_cons.1 hm with rfl | hm
    · simp only; omega
    have := hw.objects e hm
    omega
  · intro other ho hne e hm
    rw [e3] at ho
    rcases List.mem_append.1 ho with ho | ho
    · have := hw.others other ho e hm
      have := fh.ltY
      have := fh.leX
      omega
    · exact absurd (List.mem_singleton.1 ho) hne
  · rw [e1, HTable.get_cons]; rfl

/-- A configuration that sets the variable itself, with or without a value, is refused, and nothing happens. -/
theorem C102_reserved_name (os : LaunchOs) (p : Policy) (c : ProcessConfig) (w w' : WinWorld) (q : WinProcess)
    (pipe remote : BitVec 64) (v : Bytes) (hv : v ∈ c.envp)
    (hn : v = utf8 c!"SANDBOX_IPC_HANDLE" ∨ utf8 c!"SANDBOX_IPC_HANDLE=" <+: v) :
    winWorkerNew os p c w ≠ (.worker q pipe remote, w') := by
  intro h
  obtain ⟨pw, b, p', c', cmdline, call, s, x, y, hc, hp, -⟩ := launch_worker h
  obtain ⟨-, hne, -⟩ := winPrepare_ok hp
  refine hne v hv ?_
  rcases hn with rfl | ⟨t, rfl⟩
  · decide
  · exact nameFromEnv_append ipcName t eq_not_mem_ipcName

/-! A broker with one inheritable handle, 16, creates a worker. -/

def launchOs : LaunchOs where
  pid := 7
  pipes := fun _ => quietRound
  tries := 1
  setInheritable := true
  sys := fun n => if n = c!"OS" then some c!"Windows_NT" else none
  windowsDirectory := true
  supported := true
  rounds := fun _ => winGoodRound
  hProcess := 20
  opened := some 24
  spawn := true

def launchWorld : WinWorld := ⟨⟨[], 2, [(12, 1), (16, 0)]⟩, [16], ⟨0, [], []⟩, []⟩

def launchConfig : ProcessConfig :=
  { ProcessConfig.new (utf8 c!"C:\\a.exe") [utf8 c!"a"] with envp := [utf8 c!"A=1"], stdin := some 16 }

/-- The worker so made. -/
def launchedChild : WinChild where
  object := 5
  handles := [(8, 3), (16, 0)]
  environment := envBlock [utf8 c!"A=1", utf8 c!"SANDBOX_IPC_HANDLE=8", utf8 c!"COMPUTERNAME=PC", utf8 c!"LOGONSERVER=\\\\PC",
    utf8 c!"USERDOMAIN=PC", utf8 c!"USERDOMAIN_ROAMINGPROFILE=PC", utf8 c!"USERNAME=User", utf8 c!"OS=Windows_NT"]
  commandLine := utf8 c!"\"C:\\a.exe\""
  std := [16, 0xFFFFFFFFFFFFFFFF, 0xFFFFFFFFFFFFFFFF]
  attributes := [.securityCapabilities 0, .allApplicationPackagesPolicy 1, .handleList [8, 16], .childProcessPolicy 1,
    .mitigationPolicy 0x10111305]

example : winWorkerNew launchOs Policy.nothingAllowed launchConfig launchWorld =
    (.worker ⟨77, some 0⟩ 4 24,
      ⟨⟨[⟨firstName, 2, some 3⟩, ⟨utf8 c!"x", 4, none⟩], 6, [(24, 5), (20, 5), (4, 2), (12, 1), (16, 0)]⟩, [16],
        ⟨1, [0], [⟨5, launchedChild.attributes, true⟩]⟩, [launchedChild]⟩) := by
  decide +kernel

example : WorldOk launchWorld := by
  refine ⟨by decide, ?_, ?_, by simp [launchWorld]⟩
  · intro h hm
    rw [List.mem_singleton.1 hm]
    exact ⟨(16, 0), by simp [launchWorld], rfl⟩
  · simp [launchWorld]

example : ∀ e ∈ launchConfig.envp, e ≠ [] ∧ (0 : UInt8) ∉ e ∧ ¬ NamesChannel e := by
  intro e hm
  rw [List.mem_singleton.1 hm]
  exact ⟨by decide, by decide, by unfold NamesChannel; decide⟩

example : NamesChannel (utf8 c!"Sandbox_IPC_handle=5") := by unfold NamesChannel; decide +kernel

example : winReadIpcHandle launchedChild.environment = some 8 := by decide +kernel

/-- A worker made with a variable in small letters. -/
def otherCaseChild : WinChild :=
  { launchedChild with
    environment := envBlock [utf8 c!"sandbox_ipc_handle=16", utf8 c!"SANDBOX_IPC_HANDLE=8", utf8 c!"COMPUTERNAME=PC",
      utf8 c!"LOGONSERVER=\\\\PC", utf8 c!"USERDOMAIN=PC", utf8 c!"USERDOMAIN_ROAMINGPROFILE=PC", utf8 c!"USERNAME=User",
      utf8 c!"OS=Windows_NT"] }

/-- Windows ignores the case of names, the check does not: a worker whose configuration has the variable in small letters
takes another handle for its channel, here its standard input. -/
theorem C102_other_case_violated :
    ∃ q pipe remote w' child, winWorkerNew launchOs Policy.nothingAllowed
        { launchConfig with envp := [utf8 c!"sandbox_ipc_handle=16"] } launchWorld = (.worker q pipe remote, w') ∧
      w'.children = [child] ∧ winReadIpcHandle child.environment = some 16 ∧
      child.handles.get 16 = launchWorld.pw.handles.get 16 ∧ ¬ Attached w' child pipe 16 := by
  refine ⟨⟨77, some 0⟩, 4, 24,
    ⟨⟨[⟨firstName, 2, some 3⟩, ⟨utf8 c!"x", 4, none⟩], 6, [(24, 5), (20, 5), (4, 2), (12, 1), (16, 0)]⟩, [16],
      ⟨1, [0], [⟨5, launchedChild.attributes, true⟩]⟩, [otherCaseChild]⟩, otherCaseChild,
    by decide +kernel, rfl, by decide +kernel, by decide, ?_⟩
  rintro ⟨i, hi, h1, c, h2, h3, -⟩
  have : c = 0 := by
    have e : HTable.get [(8, 3), (16, 0)] 16 = some 0 := by decide
    exact Option.some.inj (h3.symm.trans e)
  subst this
  simp only [List.mem_cons, List.not_mem_nil, or_false] at hi
  rcases hi with rfl | rfl <;> cases h2

/-! ## C103: a failed creation leaves nothing -/

/-- **C103**, as far as it is true. When `Worker::new` fails, the broker has the handles it had, and none more is inheritable,
except that the handle of a process whose number cannot be got is left open. If it fails because of its arguments, no
process was created and no AppContainer profile either. Missing: when a system call fails after the process was
created, that process goes on running, see below. -/
theorem C103_nothing_left_partial (os : LaunchOs) (p : Policy) (c : ProcessConfig) (w w' : WinWorld) (e : Option BrokerError)
    (hw : WorldOk w) (h : winWorkerNew os p c w = (.error e, w')) :
    w'.inheritable = w.inheritable ∧
    (w'.pw.handles = w.pw.handles ∨ (∃ o, w'.pw.handles = (os.hProcess, o) :: w.pw.handles) ∧
      ∃ k, (os.rounds k).createOk = true ∧ (os.rounds k).pid = 0) ∧
    (e ≠ none → w'.pw.handles = w.pw.handles ∧ w'.start = w.start ∧ w'.children = w.children) :=
  launch_error hw h

/-- A refused argument: a stream that is not inheritable. -/
example : ∃ w', winWorkerNew launchOs Policy.nothingAllowed { launchConfig with stdout := some 12 } launchWorld =
    (.error (some (.cannotBuildPolicyForWorker (.handleNotInheritable 12))), w') ∧ w'.pw.handles = [(12, 1), (16, 0)] ∧
    w'.children = [] := by
  refine ⟨⟨⟨[⟨utf8 c!"x", 4, none⟩], 5, [(12, 1), (16, 0)]⟩, [16], ⟨0, [], []⟩, []⟩, by decide +kernel, rfl, rfl⟩

/-- If `OpenProcess` fails, or no thread can be created, or `GetProcessId` fails, the caller gets an error, and the worker runs
on, without anybody serving it; in the last case its handle is lost too. -/
theorem C103_process_left_violated :
    (∃ w', winWorkerNew { launchOs with opened := none } Policy.nothingAllowed launchConfig launchWorld = (.error none, w') ∧
      w'.children = [launchedChild]) ∧
    (∃ w', winWorkerNew { launchOs with spawn := false } Policy.nothingAllowed launchConfig launchWorld = (.error none, w') ∧
      w'.children = [launchedChild]) ∧
    (∃ w', winWorkerNew { launchOs with rounds := fun _ => { winGoodRound with pid := 0 } } Policy.nothingAllowed launchConfig
        launchWorld = (.error none, w') ∧ w'.children = [launchedChild] ∧
      w'.pw.handles = [(20, 5), (12, 1), (16, 0)]) := by
  refine ⟨⟨⟨⟨[⟨utf8 c!"x", 4, none⟩], 6, [(12, 1), (16, 0)]⟩, [16],
      ⟨1, [], [⟨5, launchedChild.attributes, true⟩]⟩, [launchedChild]⟩, by decide +kernel, rfl⟩,
    ⟨⟨⟨[⟨utf8 c!"x", 4, none⟩], 6, [(12, 1), (16, 0)]⟩, [16],
      ⟨1, [], [⟨5, launchedChild.attributes, true⟩]⟩, [launchedChild]⟩, by decide +kernel, rfl⟩,
    ⟨⟨⟨[⟨utf8 c!"x", 4, none⟩], 6, [(20, 5), (12, 1), (16, 0)]⟩, [16],
      ⟨1, [0], [⟨5, launchedChild.attributes, true⟩]⟩, [launchedChild]⟩, by decide +kernel, rfl, rfl⟩⟩

/-! ## C104: standard streams -/

theorem get_filter_eq {t : HTable} {f : BitVec 64 × Nat → Bool} {h : BitVec 64} (hf : ∀ o, f (h, o) = true) :
    HTable.get (List.filter f t) h = HTable.get t h := by
  induction t with
  | nil => rfl
  | cons e t ih =>
    obtain ⟨k, o⟩ := e
    by_cases hk : k = h
    · subst hk
      rw [List.filter_cons_of_pos (hf o), HTable.get_cons, HTable.get_cons]
    · rw [HTable.get_cons_ne _ _ hk]
      cases hfk : f (k, o) with
      | true => rw [List.filter_cons_of_pos hfk, HTable.get_cons_ne _ _ hk, ih]
      | false => rw [List.filter_cons_of_neg (by simp [hfk]), ih]

theorem get_of_key {t : HTable} {h : BitVec 64} (hk : ∃ e ∈ t, e.1 = h) : ∃ o, t.get h = some o := by
  cases hg : t.get h with
  | some o => exact ⟨o, rfl⟩
  | none =>
    obtain ⟨e, he, hh⟩ := hk
    exact absurd hh (HTable.get_none hg e he)

theorem not_free {t : HTable} {h k : BitVec 64} (hk : ∃ e ∈ t, e.1 = h) (hf : t.free k = true) : k ≠ h := by
  rintro rfl
  obtain ⟨e, he, hh⟩ := hk
  exact HTable.free_not_mem hf e he hh

/-- **C104**. The three standard handles of a worker: for a configured stream a handle of the worker to the object that the
configured handle refers to in the broker, and otherwise no handle at all. -/
theorem C104_streams (os : LaunchOs) (p : Policy) (c : ProcessConfig) (w w' : WinWorld) (q : WinProcess)
    (pipe remote : BitVec 64) (hs : ∀ raw ∈ streams c, ∃ e ∈ w.pw.handles, e.1 = BitVec.ofNat 64 raw)
    (h : winWorkerNew os p c w = (.worker q pipe remote, w')) :
    ∃ child, w'.children = w.children ++ [child] ∧
      ∃ i o e, child.std = [i, o, e] ∧
        ∀ s ∈ [(c.stdin, i), (c.stdout, o), (c.stderr, e)],
          (∀ raw, s.1 = some raw → s.2 = BitVec.ofNat 64 raw ∧
            ∃ object, child.handles.get s.2 = some object ∧ w.pw.handles.get s.2 = some object) ∧
          (s.1 = none → s.2 = 0xFFFFFFFFFFFFFFFF) := by
  obtain ⟨pw, b, p', c', cmdline, call, s, x, y, hc, hp, -, hcr, hlast, fh, hfr, n1, n2, n3, e1, e2, -, -, e3⟩ :=
    launch_worker h
  obtain ⟨rfl, -, hin, -, hinh, hst⟩ := winPrepare_ok hp
  obtain ⟨call', hcl, hgood, -⟩ := C62_protections _ _ _ _ _ _ hcr
  cases hlast.symm.trans hcl
  refine ⟨_, e3, _, _, _, rfl, ?_⟩
  have key : ∀ raw ∈ streams c, ∃ object,
      (childOf os { c with envp := c.envp ++ [ipcHandleVar b.toNat] } cmdline (withChannel w pw b) call.attributes).handles.get
        (BitVec.ofNat 64 raw) = some object ∧ w.pw.handles.get (BitVec.ofNat 64 raw) = some object := by
    intro raw hraw
    obtain ⟨-, hi⟩ := hst raw hraw
    have hlisted := listed_iff hgood (List.mem_map.2 ⟨raw, (hin raw).2 (.inr (.inr hraw)), rfl⟩)
    obtain ⟨object, ho⟩ := get_of_key (hs raw hraw)
    refine ⟨object, ?_, ho⟩
    simp only [childOf, childHandles]
    rw [get_filter_eq fun o => ?_]
    · show pw.handles.get _ = _
      rw [fh.handles, HTable.get_cons_ne _ _ (not_free (hs raw hraw) fh.freeB),
        HTable.get_cons_ne _ _ (not_free (hs raw hraw) fh.freeA), ho]
    · simp only [Bool.and_eq_true, List.contains_iff_mem]
      exact ⟨hi, hlisted⟩
  have one : ∀ st : Option Nat, (∀ raw, st = some raw → raw ∈ streams c) →
      (∀ raw, st = some raw → (st.map (BitVec.ofNat 64)).getD INVALID_HANDLE_VALUE = BitVec.ofNat 64 raw ∧ ∃ object,
        (childOf os { c with envp := c.envp ++ [ipcHandleVar b.toNat] } cmdline (withChannel w pw b) call.attributes).handles.get
          ((st.map (BitVec.ofNat 64)).getD INVALID_HANDLE_VALUE) = some object ∧
        w.pw.handles.get ((st.map (BitVec.ofNat 64)).getD INVALID_HANDLE_VALUE) = some object) ∧
      (st = none → (st.map (BitVec.ofNat 64)).getD INVALID_HANDLE_VALUE = 0xFFFFFFFFFFFFFFFF) := by
    intro st hm
    constructor
    · rintro raw rfl
      exact ⟨rfl, key raw (hm raw rfl)⟩
    · rintro rfl; rfl
  intro st hm
  simp only [List.mem_cons, List.not_mem_nil, or_false] at hm
  rcases hm with rfl | rfl | rfl
  · exact one c.stdin fun raw h => by simp [streams, h]
  · exact one c.stdout fun raw h => by simp [streams, h]
  · exact one c.stderr fun raw h => by simp [streams, h]

example : ∀ raw ∈ streams launchConfig, ∃ e ∈ launchWorld.pw.handles, e.1 = BitVec.ofNat 64 raw := by
  intro raw hm
  rw [List.mem_singleton.1 hm]
  exact ⟨(16, 0), by simp [launchWorld], rfl⟩

/-! ## C105: the handles of a worker -/

/-- **C105**, as far as it is true. A worker has its end of the channel, and of the broker's inheritable handles those the
policy names and the configured streams, and no other handle. Missing: this is required of the system only, that it does not
refuse lists of handles (`C105_refused_violated`). -/
theorem C105_handles_partial (os : LaunchOs) (p : Policy) (c : ProcessConfig) (w w' : WinWorld) (q : WinProcess)
    (pipe remote : BitVec 64) (hw : WorldOk w) (hr : ∀ k, ∀ a ∈ othersActs (os.pipes k), LeavesAlone os.pid a)
    (he : ∀ e ∈ c.envp, e ≠ [] ∧ (0 : UInt8) ∉ e ∧ ¬ NamesChannel e)
    (hl : ∀ k l, (os.rounds k).setOk (.handleList l) = true)
    (h : winWorkerNew os p c w = (.worker q pipe remote, w')) :
    ∃ child value object, w'.children = w.children ++ [child] ∧ Attached w' child pipe value ∧
      child.handles.get value = some object ∧
      ∀ e, e ∈ child.handles ↔ e = (value, object) ∨
        e ∈ w.pw.handles ∧ e.1 ∈ w.inheritable ∧ ∃ raw, (raw ∈ p.inherit ∨ raw ∈ streams c) ∧ BitVec.ofNat 64 raw = e.1 := by
  obtain ⟨child, value, hch, hv, hatt, -⟩ := C102_attached_partial os p c w w' q pipe remote hw hr he h
  obtain ⟨pw, b, p', c', cmdline, call, s, x, y, hc, hp, -, hcr, hlast, fh, hfr, n1, n2, n3, e1, e2, -, -, e3⟩ :=
    launch_worker h
  obtain ⟨rfl, -, hin, -, hinh, hst⟩ := winPrepare_ok hp
  have hcc := List.append_cancel_left (hch.symm.trans e3)
  simp only [List.cons.injEq, and_true] at hcc
  subst hcc
  obtain rfl : b = value := by
    have := (read_channel os.sys c.envp b he).symm.trans hv
    exact Option.some.inj this
  obtain ⟨call', hcl, hin'⟩ := C97_inherited_handles_partial _ _ _ _ _ _ hcr hl (b :: w.inheritable)
  cases hlast.symm.trans hcl
  have hmem : ∀ e, e ∈ (childOf os { c with envp := c.envp ++ [ipcHandleVar b.toNat] } cmdline (withChannel w pw b)
      call.attributes).handles ↔ e ∈ pw.handles ∧ e.1 ∈ b :: w.inheritable ∧ e.1 ∈ p'.inherit.map (BitVec.ofNat 64) := by
    intro e
    have := hin' e.1
    simp only [inheritedBy, List.mem_filter] at this
    simp only [childOf, childHandles, List.mem_filter, withChannel, Bool.and_eq_true, List.contains_iff_mem]
    constructor
    · rintro ⟨h1, h2, h3⟩
      exact ⟨h1, this.1 ⟨h2, h3⟩⟩
    · rintro ⟨h1, h2⟩
      exact ⟨h1, this.2 h2⟩
  have hb : b ∈ p'.inherit.map (BitVec.ofNat 64) := mem_inherited ((hin _).2 (.inr (.inl rfl)))
  refine ⟨_, b, y, e3, hatt, ?_, fun e => ?_⟩
  · obtain ⟨i, -, -, z, -, hz, -⟩ := hatt
    have := HTable.get_mem hz
    rw [hmem, fh.handles] at this
    obtain ⟨this, -⟩ := this
    rcases List.mem_cons.1 this with h0 | h0
    · cases h0; exact hz
    · rcases List.mem_cons.1 h0 with h0 | h0
      · cases h0; exact absurd rfl fh.ne
      · exact absurd rfl (HTable.free_not_mem fh.freeB _ h0)
  · rw [hmem, fh.handles]
    constructor
    · rintro ⟨h1, h2, h3⟩
      rcases List.mem_cons.1 h1 with h1 | h1
      · exact .inl h1
      have hne : e.1 ≠ b := by
        rcases List.mem_cons.1 h1 with rfl | h1
        · exact fh.ne
        · exact HTable.free_not_mem fh.freeB _ h1
      have h2 : e.1 ∈ w.inheritable := (List.mem_cons.1 h2).resolve_left hne
      rcases List.mem_cons.1 h1 with h1 | h1
      · obtain ⟨k, hk, hka⟩ := hw.inheritable _ h2
        rw [h1] at hka
        exact absurd hka (HTable.free_not_mem fh.freeA _ hk)
      · obtain ⟨raw, hraw, hre⟩ := List.mem_map.1 h3
        refine .inr ⟨h1, h2, raw, ?_, hre⟩
        rcases (hin raw).1 hraw with h4 | h4 | h4
        · exact .inl h4
        · rw [h4] at hre
          exact absurd (by simpa using hre.symm) hne
        · exact .inr h4
    · rintro (rfl | ⟨h1, h2, raw, h3, h4⟩)
      · exact ⟨by simp, by simp, hb⟩
      · refine ⟨by simp [h1], by simp [h2], List.mem_map.2 ⟨raw, (hin raw).2 ?_, h4⟩⟩
        rcases h3 with h3 | h3
        · exact .inl h3
        · exact .inr (.inr h3)

/-- A worker made without a list of handles. -/
def unlistedChild : WinChild :=
  { launchedChild with
    handles := [(8, 3), (12, 1), (16, 0)]
    attributes := [.securityCapabilities 1, .allApplicationPackagesPolicy 1, .childProcessPolicy 1,
      .mitigationPolicy 0x10111305] }

/-- If the system refuses the list, the worker gets every inheritable handle: here 12, which nothing allows. -/
theorem C105_refused_violated :
    ∃ q pipe remote w' child, winWorkerNew
        { launchOs with rounds := fun _ => { winGoodRound with setOk := fun | .handleList _ => false | _ => true } }
        Policy.nothingAllowed launchConfig { launchWorld with inheritable := [12, 16] } = (.worker q pipe remote, w') ∧
      w'.children = [child] ∧ Policy.nothingAllowed.inherit = [] ∧ streams launchConfig = [16] ∧
      child.handles.get 12 = launchWorld.pw.handles.get 12 ∧ child.handles.get 12 = some 1 := by
  refine ⟨⟨77, some 1⟩, 4, 24,
    ⟨⟨[⟨firstName, 2, some 3⟩, ⟨utf8 c!"x", 4, none⟩], 6, [(24, 5), (20, 5), (4, 2), (12, 1), (16, 0)]⟩, [12, 16],
      ⟨2, [0, 1], [⟨4, [.securityCapabilities 1, .allApplicationPackagesPolicy 1, .childProcessPolicy 1,
        .mitigationPolicy 0x10111305], true⟩]⟩, [unlistedChild]⟩, unlistedChild,
    by decide +kernel, rfl, rfl, rfl, by decide, by decide⟩

end Iris
