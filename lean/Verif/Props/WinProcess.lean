import Verif.Lemmas.WinProcess
/-!
# C60-C62, C96, C97: how a Windows worker process is created
-/
namespace Iris
open Spec

/-! ## C60: command lines -/

/-- **C60**, as far as it is true. The program gets the arguments it was configured with, and the path of the
executable in place of the first. Missing: the arguments that are not `PlainArgument`s, see below. -/
theorem C60_arguments_partial (exe arg0 : Bytes) (args : List Bytes) (he : 34 ∉ exe)
    (ha : ∀ a ∈ args, PlainArgument a) :
    ∃ line, winCommandLine exe (arg0 :: args) = some line ∧ parsedArguments line = exe :: args :=
  ⟨_, rfl, parsed_line exe args he ha⟩

/-- A configuration without arguments is refused. -/
theorem C60_missing (exe : Bytes) : winCommandLine exe [] = none := rfl

/-- Empty arguments get lost. -/
theorem C60_empty_argument_violated (exe arg0 : Bytes) (args : List Bytes) (he : 34 ∉ exe)
    (ha : ∀ a ∈ args, PlainArgument a) :
    ∃ line, winCommandLine exe (arg0 :: [] :: args) = some line ∧ parsedArguments line = exe :: args := by
  refine ⟨_, rfl, ?_⟩
  have h := parsed_line exe args he ha
  have ht := arguments_of_quoted args
  have hq := arguments_quoted args ha
  have hl : ([34] ++ exe ++ [34] ++ ([] :: args).flatMap winQuoted : Bytes) =
      34 :: (exe ++ 34 :: 32 :: args.flatMap winQuoted) := by
    simp [winQuoted]
  rw [hl, parsedArguments]
  have hp : programName false (34 :: (exe ++ 34 :: 32 :: args.flatMap winQuoted)) =
      (exe, args.flatMap winQuoted) := by
    rw [programName, if_pos rfl]
    have := programName_quoted exe (32 :: args.flatMap winQuoted) he
    have e : programName false (32 :: args.flatMap winQuoted) = ([], args.flatMap winQuoted) := by
      rw [programName, if_neg (by decide), if_pos (by decide)]
    rw [e] at this
    simpa using this
  rw [hp]
  exact congrArg (exe :: ·) hq

/-- An argument is taken for two because of a tab; quotes get lost; a backslash at the end joins two arguments; one
argument passes for other ones. -/
theorem C60_other_arguments_violated :
    (winCommandLine (utf8 c!"p") [[], utf8 c!"a\tb"]).map parsedArguments = some [utf8 c!"p", utf8 c!"a", utf8 c!"b"] ∧
    (winCommandLine (utf8 c!"p") [[], utf8 c!"say\"hi\""]).map parsedArguments = some [utf8 c!"p", utf8 c!"sayhi"] ∧
    (winCommandLine (utf8 c!"p") [[], utf8 c!"C:\\a b\\", utf8 c!"c"]).map parsedArguments =
      some [utf8 c!"p", utf8 c!"C:\\a b\" c"] ∧
    (winCommandLine (utf8 c!"p") [[], utf8 c!"x\" --admin \"y"]).map parsedArguments =
      some [utf8 c!"p", utf8 c!"x", utf8 c!"--admin", utf8 c!"y"] := by
  decide +kernel

/-- Arguments as in C60_arguments_partial. -/
example : ∀ a ∈ [utf8 c!"a b", utf8 c!"--x=y", utf8 c!"C:\\d\\"], PlainArgument a := by
  simp only [List.mem_cons, List.not_mem_nil, or_false, forall_eq_or_imp, forall_eq, PlainArgument]
  decide +kernel

example : winCommandLine (utf8 c!"C:\\Program Files\\w.exe") [utf8 c!"w", utf8 c!"a b", utf8 c!"C:\\d\\"] =
    some (utf8 c!"\"C:\\Program Files\\w.exe\" \"a b\" C:\\d\\") := by decide +kernel

/-! ## C61: environment -/

/-- **C61**, as far as it is true. The environment of a worker is the configured one, then for each variable that is
always passed on and to which no configured entry gives a value, the fixed value, or the broker's if it has one;
and nothing else. Names are compared exactly, which is what is missing: see `C61_same_variable_twice_violated`. -/
theorem C61_environment_partial (sys : Str → Option Str) (envp : List Bytes) :
    ∃ added, mergeEnv sys envp = envp ++ added ∧
      ∀ e, e ∈ added ↔ ∃ v ∈ passedOn, (∀ c ∈ envp, ¬ GivesValue c (utf8 v.1)) ∧
        ∃ value, passedValue sys v = some value ∧ e = utf8 v.1 ++ [61] ++ utf8 value := by
  refine ⟨_, mergeFold sys _ sanitized_nodup sanitized_names envp, fun e => ?_⟩
  have htable : sanitizedEnvironment = passedOn := rfl
  rw [List.mem_filterMap, htable]
  refine exists_congr fun v => and_congr_right fun _ => ?_
  simp only [addedFor]
  by_cases h : explicitlySet (utf8 v.1) envp = true
  · rw [if_pos h]
    obtain ⟨c, hc, hg⟩ := (explicitlySet_iff _ _).1 h
    exact ⟨fun h => (Option.noConfusion rfl (heq_of_eq h)), fun h' => absurd hg (h'.1 c hc)⟩
  · rw [if_neg h]
    have hn : ∀ c ∈ envp, ¬ GivesValue c (utf8 v.1) := fun c hc hg => h ((explicitlySet_iff _ _).2 ⟨c, hc, hg⟩)
    simp only [Option.map_eq_some_iff]
    constructor
    · rintro ⟨x, hx, rfl⟩
      exact ⟨hn, x, hx, by simp⟩
    · rintro ⟨-, x, hx, rfl⟩
      exact ⟨x, hx, by simp⟩

/-- In the environment of a worker configured by any sequence of calls, no variable gets two values. Names are
compared exactly. -/
theorem C61_no_name_twice_partial (sys : Str → Option Str) (exe : Bytes) (argv : List Bytes) (l : List ConfigCall)
    (i j : Nat) (v w name : Bytes)
    (hi : (mergeEnv sys ((ProcessConfig.new exe argv).calls l).envp)[i]? = some v)
    (hj : (mergeEnv sys ((ProcessConfig.new exe argv).calls l).envp)[j]? = some w)
    (hname : 61 ∉ name) (hv : GivesValue v name) (hw : GivesValue w name) : i = j := by
  have hun := C36_unique exe argv l
  generalize ((ProcessConfig.new exe argv).calls l).envp = envp at hi hj hun
  have hen : ∀ {e : Bytes}, GivesValue e name → EnvName e name := by
    rintro e ⟨t, rfl⟩
    exact ⟨hname, .inr ⟨t, by simp⟩⟩
  rw [mergeEnv, mergeFold sys _ sanitized_nodup sanitized_names] at hi hj
  -- an added variable is not configured, and is added once
  have hadd : ∀ (l : List (Str × Option Str)), (l.map fun v => utf8 v.1).Nodup → (∀ v ∈ l, 61 ∉ utf8 v.1) →
      ∀ e ∈ l.filterMap (addedFor sys envp), GivesValue e name → ∀ c ∈ envp, ¬ GivesValue c name := by
    intro l hnd hne e he hg c hc hgc
    obtain ⟨x, hx, hxe⟩ := List.mem_filterMap.1 he
    simp only [addedFor] at hxe
    split at hxe
    · cases hxe
    · rename_i hset
      simp only [Option.map_eq_some_iff] at hxe
      obtain ⟨val, -, rfl⟩ := hxe
      have h1 := gives_name hg hname
      rw [show (61 : UInt8) = eqSign from rfl, nameFromEnv_append _ _ (hne x hx)] at h1
      exact hset ((explicitlySet_iff _ _).2 ⟨c, hc, h1 ▸ hgc⟩)
  have hone : ∀ (l : List (Str × Option Str)), (l.map fun v => utf8 v.1).Nodup → (∀ v ∈ l, 61 ∉ utf8 v.1) →
      ∀ (i j : Nat) (v w : Bytes), (l.filterMap (addedFor sys envp))[i]? = some v → (l.filterMap (addedFor sys envp))[j]? = some w →
        GivesValue v name → GivesValue w name → i = j := by
    intro l hnd hne i j v w hi hj hv hw
    have hsub : ((l.filterMap (addedFor sys envp)).map nameFromEnv).Sublist (l.map fun v => utf8 v.1) := by
      clear hi hj hnd
      induction l with
      | nil => simp
      | cons x l ih =>
        have ih := ih fun v hv => hne v (List.mem_cons_of_mem _ hv)
        rw [List.filterMap_cons, List.map_cons]
        cases ha : addedFor sys envp x with
        | none => exact List.Sublist.cons _ ih
        | some e =>
          simp only [addedFor] at ha
          split at ha
          · cases ha
          · simp only [Option.map_eq_some_iff] at ha
            obtain ⟨val, -, rfl⟩ := ha
            rw [List.map_cons, show (61 : UInt8) = eqSign from rfl, nameFromEnv_append _ _ (hne x (by simp))]
            exact ih.cons_cons _
    have hnd' := hsub.nodup hnd
    have e1 : ((l.filterMap (addedFor sys envp)).map nameFromEnv)[i]? = some name := by
      rw [List.getElem?_map, hi, Option.map_some, gives_name hv hname]
    have e2 : ((l.filterMap (addedFor sys envp)).map nameFromEnv)[j]? = some name := by
      rw [List.getElem?_map, hj, Option.map_some, gives_name hw hname]
    have l1 := (List.getElem?_eq_some_iff.1 e1).1
    exact (List.getElem?_inj l1 hnd').1 (e1.trans e2.symm)
  rw [List.getElem?_append] at hi hj
  split at hi
  · split at hj
    · exact hun i j v w name hi hj (hen hv) (hen hw)
    · exact absurd hv (hadd _ sanitized_nodup sanitized_names w (List.mem_of_getElem? hj) hw v (List.mem_of_getElem? hi))
  · split at hj
    · exact absurd hw (hadd _ sanitized_nodup sanitized_names v (List.mem_of_getElem? hi) hv w (List.mem_of_getElem? hj))
    · have := hone _ sanitized_nodup sanitized_names _ _ v w hi hj hv hw
      omega

/-- The block given to the system says this environment, if no configured entry is empty. -/
theorem C61_block_partial (l : List Bytes) (h : ∀ e ∈ l, e ≠ [] ∧ (0 : UInt8) ∉ e) : 
    blockStrings [] (envBlock l) = some l :=
  blockStrings_block l h

/-- For Windows, which ignores the case of names, a variable of the user is given twice. -/
theorem C61_same_variable_twice_violated :
    utf8 c!"Username=John" ∈ mergeEnv (fun _ => none) [utf8 c!"Username=John"] ∧
    utf8 c!"USERNAME=User" ∈ mergeEnv (fun _ => none) [utf8 c!"Username=John"] := by
  decide +kernel

/-- An empty entry, which the API accepts, makes the worker lose all the variables after it, also the one with the
handle it needs to start. -/
theorem C61_empty_entry_violated :
    ((ProcessConfig.new [] []).calls [.env [], .env (utf8 c!"A=1"), .env (ipcHandleVar 64)]).envp =
      [[], utf8 c!"A=1", ipcHandleVar 64] ∧
    ∀ sys, blockStrings [] (envBlock (mergeEnv sys [[], utf8 c!"A=1", ipcHandleVar 64])) = some [] := by
  refine ⟨by decide +kernel, fun sys => ?_⟩
  rw [mergeEnv, mergeFold sys _ sanitized_nodup sanitized_names]
  simp [envBlock, blockStrings]

/-- C61: an environment where one variable is configured and the broker has two others. -/
example : mergeEnv (fun n => if n = c!"OS" then some c!"Windows_NT" else if n = c!"SECRET" then some c!"x" else none)
    [utf8 c!"USERNAME=bob", utf8 c!"A=1"] =
    [utf8 c!"USERNAME=bob", utf8 c!"A=1", utf8 c!"COMPUTERNAME=PC", utf8 c!"LOGONSERVER=\\\\PC", utf8 c!"USERDOMAIN=PC",
     utf8 c!"USERDOMAIN_ROAMINGPROFILE=PC", utf8 c!"OS=Windows_NT"] := by decide +kernel

/-! ## C62: negotiation of the protections -/

theorem justified_start (supported : Bool) (inherited : List (BitVec 64)) (rounds : Nat → WinRound) :
    Justified supported inherited rounds ⟨true, true, true, true, true⟩ :=
  ⟨by simp, by simp, by simp, by simp, by simp⟩

/-- **C62**, termination. Whatever the system does, at most six iterations are made. -/
theorem C62_ends (supported : Bool) (inherited : List (BitVec 64)) (rounds : Nat → WinRound) (s : WinStart) (n : Nat)
    (hn : 6 ≤ n) :
    (∀ f s', winCreate supported inherited rounds n s ≠ .again f s') ∧
    winCreate supported inherited rounds n s = winCreate supported inherited rounds 6 s := by
  constructor
  · intro f s' h
    have := winLoop_ok supported inherited rounds n 0 _ s (justified_start _ _ _) (by simp [WinFlags.weight]; omega)
    rw [winCreate] at h
    rw [h] at this
    exact this
  · have key : ∀ m k f s, (∀ f' s', winLoop supported inherited rounds m k f s ≠ .again f' s') → ∀ d,
        winLoop supported inherited rounds (m + d) k f s = winLoop supported inherited rounds m k f s := by
      intro m
      induction m with
      | zero => intro k f s h d; exact absurd rfl (h f s)
      | succ m ih =>
        intro k f s h d
        rw [show m + 1 + d = (m + d) + 1 from by omega]
        rw [winLoop] at h ⊢
        rw [winLoop]
        generalize winAttempt supported inherited f s (rounds k) = a at h
        cases a with
        | again f' s' => exact ih _ _ _ h d
        | created p s' => rfl
        | failed s' => rfl
    obtain ⟨d, rfl⟩ : ∃ d, n = 6 + d := ⟨n - 6, by omega⟩
    refine key 6 0 _ s (fun f s' h => ?_) d
    have := winLoop_ok supported inherited rounds 6 0 _ s (justified_start _ _ _) (by simp [WinFlags.weight])
    rw [h] at this
    exact this

/-- **C62**, calls. Whenever `CreateProcess` is called, every slot is filled, with a different attribute that
restricts the worker. -/
theorem C62_calls (supported : Bool) (inherited : List (BitVec 64)) (rounds : Nat → WinRound) (s s' : WinStart)
    (h : (∃ p, winCreate supported inherited rounds 6 s = .created p s') ∨
      winCreate supported inherited rounds 6 s = .failed s') :
    ∃ calls, s'.calls = s.calls ++ calls ∧ ∀ c ∈ calls, GoodCall inherited c := by
  have := winLoop_ok supported inherited rounds 6 0 _ s (justified_start _ _ _) (by simp [WinFlags.weight])
  rcases h with ⟨p, h⟩ | h
  · rw [winCreate] at h
    rw [h] at this
    obtain ⟨cs, c, h1, h2, k, f, s0, ⟨c', h3, h4, -⟩, h5⟩ := this
    have hc : c' = c := by
      have := h3.symm.trans h5
      simpa using this
    refine ⟨cs ++ [c], by rw [h1]; simp, fun x hx => ?_⟩
    rcases List.mem_append.1 hx with hx | hx
    · exact h2 x hx
    · simp at hx; subst hx; exact hc ▸ h4
  · rw [winCreate] at h
    rw [h] at this
    exact this.1

/-- **C62**, success. The process made by the last call is the worker; each of the five protections is on, unless
the system refused it. -/
theorem C62_protections (supported : Bool) (inherited : List (BitVec 64)) (rounds : Nat → WinRound) (s s' : WinStart)
    (p : WinProcess) (h : winCreate supported inherited rounds 6 s = .created p s') :
    ∃ c, s'.calls.getLast? = some c ∧ GoodCall inherited c ∧
      (∀ kind < 5, kind ∈ c.attributes.map attrKind ∨ Refused supported inherited rounds kind) ∧
      (∃ k, (rounds k).createOk = true ∧ p.pid = (rounds k).pid ∧ p.pid ≠ 0#32) ∧
      (∀ id, p.profile = some id ↔ .securityCapabilities id ∈ c.attributes) := by
  have := winLoop_ok supported inherited rounds 6 0 _ s (justified_start _ _ _) (by simp [WinFlags.weight])
  rw [winCreate] at h
  rw [h] at this
  obtain ⟨cs, c, h1, h2, k, f, s0, ⟨c', h3, h4, h5, h6, h7, h8, h9⟩, h10⟩ := this
  have hc : c' = c := by
    have := h3.symm.trans h10
    simpa using this
  subst hc
  exact ⟨c', by rw [h1]; simp, h4, h5, ⟨k, h8, h6, h7⟩, h9⟩

/-- **C62**, failure. A worker is not created only if the list of attributes or the process could not be created,
the latter also without mitigations, or if the process has no number. -/
theorem C62_failures (supported : Bool) (inherited : List (BitVec 64)) (rounds : Nat → WinRound) (s s' : WinStart)
    (h : winCreate supported inherited rounds 6 s = .failed s') :
    ∃ k, (rounds k).listOk = false ∨
      (rounds k).createOk = false ∧ Refused supported inherited rounds 4 ∨
      (rounds k).createOk = true ∧ (rounds k).pid = 0#32 := by
  have := winLoop_ok supported inherited rounds 6 0 _ s (justified_start _ _ _) (by simp [WinFlags.weight])
  rw [winCreate] at h
  rw [h] at this
  obtain ⟨-, k, f, s0, -, h2⟩ := this
  exact ⟨k, h2⟩

/-- A system that has everything. -/
def winGoodRound : WinRound := ⟨true, 0, 0, fun _ => true, true, 77⟩

/-- A system without less privileged AppContainers and without win32k filtering. -/
def winOldRound : WinRound :=
  ⟨true, 0, 0, fun | .allApplicationPackagesPolicy _ => false | .mitigationPolicy _ => false | _ => true, true, 78⟩

example : winCreate true [8, 4, 8] (fun _ => winGoodRound) 6 ⟨0, [], []⟩ = .created ⟨77, some 0⟩
    ⟨1, [0], [⟨5, [.securityCapabilities 0, .allApplicationPackagesPolicy 1, .handleList [4, 8], .childProcessPolicy 1,
      .mitigationPolicy 0x10111305], true⟩]⟩ := by
  decide +kernel

example : winCreate true [8, 4, 8] (fun _ => winOldRound) 6 ⟨0, [], []⟩ = .created ⟨78, some 2⟩
    ⟨3, [0, 1, 2], [⟨3, [.securityCapabilities 2, .handleList [4, 8], .childProcessPolicy 1], true⟩]⟩ := by
  decide +kernel

/-! ## C96: AppContainer profiles -/

/-- **C96**, as far as it is true. If nothing is refused, the profile of a worker is gone when the worker is dropped,
and no other one was added. Missing: when a protection is refused, the profiles of the earlier attempts stay,
see `C96_profile_left_violated`. -/
theorem C96_profile_deleted_partial (inherited : List (BitVec 64)) (rounds : Nat → WinRound) (s s' : WinStart)
    (p : WinProcess) (h : winCreate true inherited rounds 6 s = .created p s')
    (h0 : (rounds 0).setOk = fun _ => true) (h1 : ¬ NoProfile (rounds 0)) (h2 : (rounds 0).createOk = true)
    (h3 : s.nextId ∉ s.profiles) :
    (p.drop true s').profiles = s.profiles := by
  have hf : s.profiles.filter (fun x => decide (x ≠ s.nextId)) = s.profiles := by
    rw [List.filter_eq_self]
    intro x hx
    simp only [ne_eq, decide_not, Bool.not_eq_true', decide_eq_false_iff_not]
    exact fun e => h3 (e ▸ hx)
  have hc : createProfile s (rounds 0) = (true, { s with nextId := s.nextId + 1, profiles := s.profiles ++ [s.nextId] }) := by
    simp only [createProfile]
    by_cases h4 : (rounds 0).profile1 = HRESULT_ALREADY_EXISTS
    · rw [if_pos h4]
      by_cases h5 : (rounds 0).profile2 = 0
      · rw [if_pos h5, hf]
      · exact absurd ⟨by rw [h4]; decide, fun _ => h5⟩ h1
    · rw [if_neg h4]
      by_cases h5 : (rounds 0).profile1 = 0
      · rw [if_pos h5]
      · exact absurd ⟨h5, fun e => absurd e h4⟩ h1
  have ha : winAttempt true inherited ⟨true, true, true, true, true⟩ s (rounds 0) = .created p s' ∨
      winAttempt true inherited ⟨true, true, true, true, true⟩ s (rounds 0) = .failed s' := by
    rw [winCreate, winLoop] at h
    generalize hA : winAttempt true inherited ⟨true, true, true, true, true⟩ s (rounds 0) = a at h
    cases a with
    | created => exact .inl h
    | failed => cases h
    | again f s1 =>
      exfalso
      simp only [winAttempt, if_true, hc] at hA
      split at hA
      · simp only [trySet, h0, if_true, winFinish, h2] at hA
        split at hA <;> cases hA
      · cases hA
  simp only [winAttempt, if_true, hc, trySet, h0, winFinish, h2] at ha
  have hp : p.profile = some s.nextId ∧ s'.profiles = s.profiles ++ [s.nextId] := by
    split at ha
    · split at ha
      · rcases ha with ha | ha
        · cases ha
        · exfalso
          rw [winCreate, winLoop] at h
          simp only [winAttempt, if_true, hc, trySet, h0, winFinish, h2] at h
          rename_i hl hpid
          simp [hl, hpid] at h
      · rcases ha with ha | ha
        · cases ha; exact ⟨rfl, rfl⟩
        · cases ha
    · rcases ha with ha | ha
      · cases ha
      · exfalso
        rw [winCreate, winLoop] at h
        rename_i hl
        simp [winAttempt, hl] at h
  simp only [WinProcess.drop, hp.1, if_true, hp.2, List.filter_append, hf]
  simp

/-- A system that refuses the restriction of child processes: the profile of the first attempt stays for ever. -/
theorem C96_profile_left_violated :
    ∃ p s', winCreate true [4] (fun _ => ⟨true, 0, 0, fun | .childProcessPolicy _ => false | _ => true, true, 77⟩) 6
        ⟨0, [], []⟩ = .created p s' ∧ (p.drop true s').profiles = [0] :=
  ⟨⟨77, some 1⟩, ⟨2, [0, 1], [⟨4, [.securityCapabilities 1, .allApplicationPackagesPolicy 1, .handleList [4],
    .mitigationPolicy 0x10111305], true⟩]⟩, by decide +kernel, by decide +kernel⟩

/-- Only profiles of the numbers used between two states differ. -/
def SameProfiles (s s' : WinStart) : Prop :=
  s.nextId ≤ s'.nextId ∧ ∀ x, x < s.nextId ∨ s'.nextId ≤ x → (x ∈ s'.profiles ↔ x ∈ s.profiles)

theorem SameProfiles.trans {a b c : WinStart} (h1 : SameProfiles a b) (h2 : SameProfiles b c) : SameProfiles a c := by
  refine ⟨Nat.le_trans h1.1 h2.1, fun x hx => ?_⟩
  rw [h2.2 x (by have := h1.1; omega), h1.2 x (by have := h2.1; omega)]

theorem createProfile_profiles {s s' : WinStart} {r : WinRound} {b : Bool} (h : createProfile s r = (b, s')) :
    SameProfiles s s' ∧ s'.nextId = s.nextId + 1 ∧ (b = true → s.nextId ∈ s'.profiles) := by
  simp only [createProfile] at h
  have hne : ∀ x, x < s.nextId ∨ s.nextId + 1 ≤ x → x ≠ s.nextId := by omega
  split at h
  · split at h
    · obtain ⟨rfl, rfl⟩ := Prod.mk.inj h
      refine ⟨⟨Nat.le_succ _, fun x hx => ?_⟩, rfl, fun _ => by simp⟩
      simp only [List.mem_append, List.mem_filter, List.mem_singleton, decide_eq_true_eq]
      have := hne x hx
      constructor
      · rintro (⟨h, -⟩ | h)
        · exact h
        · exact absurd h this
      · exact fun h => .inl ⟨h, this⟩
    · obtain ⟨rfl, rfl⟩ := Prod.mk.inj h
      refine ⟨⟨Nat.le_succ _, fun x hx => ?_⟩, rfl, fun h => by cases h⟩
      simp only [List.mem_filter, decide_eq_true_eq]
      exact ⟨fun h => h.1, fun h => ⟨h, hne x hx⟩⟩
  · split at h
    · obtain ⟨rfl, rfl⟩ := Prod.mk.inj h
      refine ⟨⟨Nat.le_succ _, fun x hx => ?_⟩, rfl, fun _ => by simp⟩
      simp only [List.mem_append, List.mem_singleton]
      exact ⟨fun h => h.resolve_right (hne x hx), .inl⟩
    · obtain ⟨rfl, rfl⟩ := Prod.mk.inj h
      exact ⟨⟨Nat.le_succ _, fun x hx => Iff.rfl⟩, rfl, fun h => by cases h⟩

/-- What an iteration does to the profiles. -/
def ProfilesOf (s : WinStart) : WinAttempt → Prop
  | .again _ s' => SameProfiles s s'
  | .failed s' => SameProfiles s s'
  | .created p s' => SameProfiles s s' ∧ ∀ id, p.profile = some id → id ∈ s'.profiles ∧ s.nextId ≤ id ∧ id < s'.nextId

theorem winFinish_profiles (inherited : List (BitVec 64)) (f : WinFlags) (slots : Nat) (attributes : List ProcAttr)
    (profile : Option Nat) (s0 s : WinStart) (r : WinRound) (hs : SameProfiles s0 s)
    (hp : ∀ id, profile = some id → id ∈ s.profiles ∧ s0.nextId ≤ id ∧ id < s.nextId) :
    ProfilesOf s0 (winFinish inherited f slots attributes profile s r) := by
  unfold winFinish
  split
  · exact hs
  · split
    · exact hs
    · split
      · exact hs
      · simp only []
        split
        · split
          · exact hs
          · exact ⟨hs, hp⟩
        · split <;> exact hs

theorem winAttempt_profiles (supported : Bool) (inherited : List (BitVec 64)) (f : WinFlags) (s : WinStart)
    (r : WinRound) : ProfilesOf s (winAttempt supported inherited f s r) := by
  have hrefl : SameProfiles s s := ⟨Nat.le_refl _, fun _ _ => Iff.rfl⟩
  unfold winAttempt
  simp only []
  split
  · split
    · split
      · split
        · next h => exact (createProfile_profiles h).1
        · next s' h =>
          obtain ⟨h1, h2, h3⟩ := createProfile_profiles h
          split
          · exact h1
          · split
            · exact h1
            · refine winFinish_profiles _ _ _ _ _ _ _ _ h1 ?_
              rintro id e
              cases e
              exact ⟨h3 rfl, Nat.le_refl _, by omega⟩
      · exact hrefl
    · exact winFinish_profiles _ _ _ _ _ _ _ _ hrefl (fun _ h => by cases h)
  · exact hrefl

theorem winLoop_profiles (supported : Bool) (inherited : List (BitVec 64)) (rounds : Nat → WinRound) (n : Nat) :
    ∀ k f s, ProfilesOf s (winLoop supported inherited rounds n k f s) := by
  induction n with
  | zero => exact fun _ _ s => ⟨Nat.le_refl _, fun _ _ => Iff.rfl⟩
  | succ n ih =>
    intro k f s
    have h := winAttempt_profiles supported inherited f s (rounds k)
    simp only [winLoop]
    cases ha : winAttempt supported inherited f s (rounds k) with
    | again f' s1 =>
      rw [ha] at h
      have h' := ih (k + 1) f' s1
      simp only []
      cases hl : winLoop supported inherited rounds n (k + 1) f' s1 with
      | again f2 s2 => rw [hl] at h'; exact SameProfiles.trans h h'
      | failed s2 => rw [hl] at h'; exact SameProfiles.trans h h'
      | created p s2 =>
        rw [hl] at h'
        refine ⟨SameProfiles.trans h h'.1, fun id e => ?_⟩
        obtain ⟨a, b, c⟩ := h'.2 id e
        exact ⟨a, Nat.le_trans h.1 b, c⟩
    | failed s1 => rw [ha] at h; exact h
    | created p s1 => rw [ha] at h; exact h

/-- **C96**, for every behaviour of the system. A worker is put in a profile only if that profile exists, its number
was not used before this creation, and it is deleted with the worker. Of the other profiles, only those of numbers
used during this creation may differ, whether it succeeds or fails. -/
theorem C96_own_profile_partial (inherited : List (BitVec 64)) (rounds : Nat → WinRound) (s s' : WinStart) :
    (∀ p, winCreate true inherited rounds 6 s = .created p s' →
      (∀ id, p.profile = some id → id ∈ s'.profiles ∧ s.nextId ≤ id ∧ id < s'.nextId ∧ id ∉ (p.drop true s').profiles) ∧
      ∀ x, x < s.nextId ∨ s'.nextId ≤ x → (x ∈ (p.drop true s').profiles ↔ x ∈ s.profiles)) ∧
    (winCreate true inherited rounds 6 s = .failed s' →
      ∀ x, x < s.nextId ∨ s'.nextId ≤ x → (x ∈ s'.profiles ↔ x ∈ s.profiles)) := by
  have h := winLoop_profiles true inherited rounds 6 0 ⟨true, true, true, true, true⟩ s
  constructor
  · intro p hp
    rw [winCreate] at hp
    rw [hp] at h
    obtain ⟨h1, h2⟩ := h
    refine ⟨fun id e => ?_, fun x hx => ?_⟩
    · obtain ⟨a, b, c⟩ := h2 id e
      refine ⟨a, b, c, ?_⟩
      simp [WinProcess.drop, e]
    · rw [← h1.2 x hx]
      cases e : p.profile with
      | none => simp [WinProcess.drop, e]
      | some id =>
        obtain ⟨a, b, c⟩ := h2 id e
        simp only [WinProcess.drop, e, if_true, List.mem_filter, decide_eq_true_eq]
        exact ⟨fun h => h.1, fun h => ⟨h, by omega⟩⟩
  · intro hp x hx
    rw [winCreate] at hp
    rw [hp] at h
    exact h.2 x hx

/-- The profile of another process' worker is there: it is kept, and the worker has its own. -/
example : winCreate true [4] (fun _ => winGoodRound) 6 ⟨3, [1, 9], []⟩ =
    .created ⟨77, some 3⟩ ⟨4, [1, 9, 3], [⟨5, [.securityCapabilities 3, .allApplicationPackagesPolicy 1, .handleList [4],
      .childProcessPolicy 1, .mitigationPolicy 0x10111305], true⟩]⟩ := by decide +kernel

example : (rounds : Nat → WinRound) → rounds = (fun _ => winGoodRound) → (rounds 0).setOk = (fun _ => true) ∧
    ¬ NoProfile (rounds 0) ∧ (rounds 0).createOk = true := by
  rintro _ rfl
  exact ⟨rfl, fun h => h.1 rfl, rfl⟩

/-! ## C97: inherited handles -/

/-- **C97**, as far as it is true. If the system does not refuse lists of handles, a worker inherits the handles that
the policy says, of those that can be inherited, and no other one. -/
theorem C97_inherited_handles_partial (supported : Bool) (inherited : List (BitVec 64)) (rounds : Nat → WinRound)
    (s s' : WinStart) (p : WinProcess) (h : winCreate supported inherited rounds 6 s = .created p s')
    (hr : ∀ k l, (rounds k).setOk (.handleList l) = true) (inheritable : List (BitVec 64)) :
    ∃ c, s'.calls.getLast? = some c ∧
      ∀ x, x ∈ inheritedBy c inheritable ↔ x ∈ inheritable ∧ x ∈ inherited := by
  obtain ⟨c, h1, ⟨-, h2, h3⟩, h4, -⟩ := C62_protections supported inherited rounds s s' p h
  refine ⟨c, h1, fun x => ?_⟩
  rcases h4 2 (by omega) with hk | ⟨k, l, -, hl⟩
  · simp only [inheritedBy, List.mem_filter, List.all_eq_true]
    refine and_congr_right fun _ => ?_
    constructor
    · intro hall
      obtain ⟨a, ha, hak⟩ := List.mem_map.1 hk
      cases a with
      | handleList l =>
        have := hall _ ha
        simp only [List.contains_iff_mem] at this
        exact ((h3 _ ha).2 x).1 this
      | _ => cases hak
    · intro hx a ha
      cases a with
      | handleList l =>
        simp only [List.contains_iff_mem]
        exact ((h3 _ ha).2 x).2 hx
      | _ => rfl
  · rw [hr k l] at hl; cases hl

/-- If the system refuses a list of handles (for example an empty one), the worker is created anyway, and inherits
every handle of the broker that can be inherited. -/
theorem C97_all_inherited_violated :
    ∃ p s' c, winCreate true [4] (fun _ => ⟨true, 0, 0, fun | .handleList _ => false | _ => true, true, 77⟩) 6
        ⟨0, [], []⟩ = .created p s' ∧ s'.calls.getLast? = some c ∧ inheritedBy c [4, 8, 12] = [4, 8, 12] :=
  ⟨⟨77, some 1⟩, ⟨2, [0, 1], [⟨4, [.securityCapabilities 1, .allApplicationPackagesPolicy 1, .childProcessPolicy 1,
    .mitigationPolicy 0x10111305], true⟩]⟩, _, by decide +kernel, rfl, by decide +kernel⟩

end Iris
