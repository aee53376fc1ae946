import Verif.Lemmas.ProcessMem
import Verif.Props.Process
/-! # The memory of a new worker's parameters (C126) -/
namespace Iris
open Spec

theorem start_mem (p : Policy) (c : ProcessConfig) (at' : ConfigAt) (t : FdTable) (caps : Caps) (os : ProcOs)
    (w parentPipe childPipe : Nat) (m : LMem) (hf : FreshMem m) (hs : Stored m c at') :
    let closed := (t.erase childPipe).erase parentPipe
    match tryClone os with
    | .error e => ∃ n, startMem p c at' t caps os w parentPipe childPipe m = some (⟨.error e, closed, none⟩, none,
        ⟨fun i => if i = m.next + 5 then some (.params (rawParams m.next p c at' os childPipe)) else m.blocks i, n⟩)
    | .ok (pid, _, ns) =>
      let ending := cloneEntrypoint os.entry (entryParams p c os childPipe) t caps
      let run : ProcRun := ⟨readErrno os w pid ending, closed, some ⟨pid, ns, ending⟩⟩
      match run.result with
      | .error _ => ∃ n, startMem p c at' t caps os w parentPipe childPipe m = some (run, none, ⟨m.blocks, n⟩)
      | .ok _ => ∃ a n, m.next ≤ a ∧ startMem p c at' t caps os w parentPipe childPipe m = some (run, some a,
        ⟨fun i => if i = a then some (.stack (1024 * 1024)) else m.blocks i, n⟩) := by
  intro closed
  have hM := withParams_fresh hf p c at' os childPipe
  have hat := attempts_mem os (withParams m p c at' os childPipe) hM
  have hst : startMem p c at' t caps os w parentPipe childPipe m =
      match orElseMem (orElseMem (tryCloneMem os.clone1 (CLONE_NEWUSER ||| CLONE_NEWPID) (withParams m p c at' os childPipe))
        os.clone2 CLONE_NEWPID) os.clone3 0#32 with
      | none => none
      | some (.error e, m') =>
        (m'.drops [m.next + 4, m.next + 3, m.next + 2, m.next + 1, m.next]).map fun m =>
          (⟨.error (.internalOsOperationFailed c!"clone() failed" e), closed, none⟩, none, m)
      | some (.ok (pid, stack, flags), atClone) =>
        (atClone.drops [m.next + 5]).bind fun m' =>
        ((childMemory flags atClone m').readParams (m.next + 5)).bind fun ep =>
        let ending := cloneEntrypoint os.entry ep t caps
        let run : ProcRun := ⟨readErrno os w pid ending, closed, some ⟨pid, flags &&& CLONE_NEWPID ≠ 0#32, ending⟩⟩
        match run.result with
        | .error _ => (m'.drops [stack, m.next + 4, m.next + 3, m.next + 2, m.next + 1, m.next]).map fun m => (run, none, m)
        | .ok _ => (m'.drops [m.next + 4, m.next + 3, m.next + 2, m.next + 1, m.next]).map fun m => (run, some stack, m) :=
    rfl
  simp only at hat
  cases htc : tryClone os with
  | error e =>
    rw [htc] at hat
    obtain ⟨n, code, hn, hr, he⟩ := hat
    refine ⟨n, ?_⟩
    rw [hst, hr]
    simp only
    rw [drops_all _ _ (by simp) ?_]
    · simp only [Option.map_some, he, Option.some.injEq, Prod.mk.injEq, LMem.mk.injEq, true_and, and_true]
      funext i
      simp only [withParams, List.mem_cons, List.not_mem_nil, or_false]
      by_cases h5 : i = m.next + 5
      · rw [if_pos h5, if_neg (by omega), if_pos h5]
      · rw [if_neg h5]
        by_cases ho : i < m.next ∨ m.next + 6 ≤ i
        · rw [if_neg (by omega), if_neg (by omega), if_neg (by omega), if_neg (by omega), if_neg (by omega),
            if_neg (by omega), if_neg (by omega)]
        · rw [if_pos (by omega), hf i (by omega), if_neg h5]
    · intro a ha
      simp only [List.mem_cons, List.not_mem_nil, or_false] at ha
      exact withParams_live m p c at' os childPipe a (by omega) (by omega)
  | ok x =>
    obtain ⟨pid, u, ns⟩ := x
    rw [htc] at hat
    obtain ⟨n, flags, hn, hr, hvm, hns⟩ := hat
    have hn' : m.next + 6 ≤ n := hn
    have hst2 := hst
    rw [hr] at hst2
    simp only at hst2
    generalize hC : ((⟨(withParams m p c at' os childPipe).blocks, n⟩ : LMem).alloc (.stack (1024 * 1024))).2 = atClone at hst2
    have hCb : ∀ i, atClone.blocks i = if i = n then some (.stack (1024 * 1024))
        else (withParams m p c at' os childPipe).blocks i := by
      intro i; rw [← hC]; rfl
    have hext : (withParams m p c at' os childPipe).Extends atClone := by
      rw [← hC]
      exact extends_alloc _ (fresh_next hM n hn) _
    have hpar := withParams_params (m := m) p c at' os childPipe hext
    have hread : atClone.readParams (m.next + 5) = some (entryParams p c os childPipe) :=
      readParams_of ((withParams_extends hf p c at' os childPipe).trans hext) _ hs hpar.1 hpar.2
    have hvm' : flags &&& CLONE_VM = 0#32 := hvm
    rw [drops_all [m.next + 5] atClone (by simp) (by simp [hpar.1])] at hst2
    simp only [Option.bind_some, childMemory, if_pos hvm', hread] at hst2
    have hns' : decide (flags &&& CLONE_NEWPID ≠ 0#32) = ns := hns
    simp only [hns'] at hst2
    have hlive : ∀ a, m.next ≤ a → a < m.next + 5 →
        ((if a ∈ [m.next + 5] then none else atClone.blocks a) : Option LBlock).isSome := by
      intro a h1 h2
      rw [if_neg (by simp; omega), hCb, if_neg (by omega)]
      exact withParams_live m p c at' os childPipe a h1 (by omega)
    simp only
    generalize hres : readErrno os w pid (cloneEntrypoint os.entry (entryParams p c os childPipe) t caps) = res at hst2
    cases res with
    | error e =>
      simp only at hst2 ⊢
      refine ⟨atClone.next, ?_⟩
      rw [hst2, drops_all _ _ ?_ ?_]
      · simp only [Option.map_some, Option.some.injEq, Prod.mk.injEq, LMem.mk.injEq, true_and, and_true]
        funext i
        simp only [List.mem_cons, List.not_mem_nil, or_false, hCb]
        by_cases ho : i < m.next ∨ m.next + 6 ≤ i
        · by_cases hi : i = n
          · rw [if_pos (by omega), hf i (by omega)]
          · rw [if_neg (by omega), if_neg (by omega), if_neg hi, withParams_outside m p c at' os childPipe i ho]
        · rw [hf i (by omega)]
          by_cases h5 : i = m.next + 5
          · rw [if_neg (by omega), if_pos h5]
          · rw [if_pos (by omega)]
      · simp; omega
      · intro a ha
        simp only [List.mem_cons, List.not_mem_nil, or_false] at ha
        rcases ha with ha | ha
        · subst ha
          simp only [List.mem_cons, List.not_mem_nil, or_false, hCb]
          rw [if_neg (by omega), if_pos True.intro]; rfl
        · exact hlive a (by omega) (by omega)
    | ok v =>
      simp only at hst2 ⊢
      refine ⟨n, atClone.next, by omega, ?_⟩
      rw [hst2, drops_all _ _ (by simp) ?_]
      · simp only [Option.map_some, Option.some.injEq, Prod.mk.injEq, LMem.mk.injEq, true_and, and_true]
        funext i
        simp only [List.mem_cons, List.not_mem_nil, or_false, hCb]
        by_cases hi : i = n
        · rw [if_pos hi, if_neg (by omega), if_neg (by omega), if_pos hi]
        · rw [if_neg hi]
          by_cases ho : i < m.next ∨ m.next + 6 ≤ i
          · rw [if_neg (by omega), if_neg (by omega), withParams_outside m p c at' os childPipe i ho, if_neg hi]
          · rw [hf i (by omega)]
            by_cases h5 : i = m.next + 5
            · rw [if_neg (by omega), if_pos h5, if_neg hi]
            · rw [if_pos (by omega), if_neg hi]
      · intro a ha
        simp only [List.mem_cons, List.not_mem_nil, or_false] at ha
        exact hlive a (by omega) (by omega)

theorem fds_mem (m : LMem) (hf : FreshMem m) : ((m.alloc (.ints [-1, -1])).2.drops [m.next]) =
    some ⟨m.blocks, m.next + 1⟩ := drop_stack m hf _

theorem stored_next {m : LMem} {c : ProcessConfig} {at' : ConfigAt} (hs : Stored m c at') (n : Nat) :
    Stored ⟨m.blocks, n⟩ c at' := ⟨hs.exe, hs.argvLength, hs.argv, hs.envpLength, hs.envp⟩

theorem pipe_inheritable (t : FdTable) (r w : Nat) : setInheritable ((t.alloc ⟨r, 0#32⟩).2.alloc ⟨w, 0#32⟩).2
    ((t.alloc ⟨r, 0#32⟩).2.alloc ⟨w, 0#32⟩).1 false = (.ok (), ((t.alloc ⟨r, 0#32⟩).2.alloc ⟨w, 0#32⟩).2.set
      ((t.alloc ⟨r, 0#32⟩).2.alloc ⟨w, 0#32⟩).1 ⟨w, (0#32 &&& ~~~FD_CLOEXEC) ||| (if false then 0#32 else FD_CLOEXEC)⟩) :=
  setInheritable_ok (FdTable.get_alloc_self (t.alloc ⟨r, 0#32⟩).2 ⟨w, 0#32⟩) false

/-- All cases of the creation of a process. -/
theorem new_mem (p : Policy) (c : ProcessConfig) (at' : ConfigAt) (t : FdTable) (caps : Caps) (os : ProcOs)
    (m : LMem) (hf : FreshMem m) (hs : Stored m c at') :
    ∃ n stack, ∃ extra : Nat → Option LBlock, newProcessMem p c at' t caps os m = some (newProcess p c t caps os, stack,
        ⟨fun i => if m.next ≤ i then extra i else m.blocks i, n⟩) ∧
      (match (newProcess p c t caps os).result with
      | .ok _ => ∃ a, m.next ≤ a ∧ stack = some a ∧ ∀ i, extra i = if i = a then some (.stack (1024 * 1024)) else none
      | .error _ => stack = none ∧
        ((∃ x, os.clone1 = .ok x) ∨ (∃ x, os.clone2 = .ok x) ∨ (∃ x, os.clone3 = .ok x) → ∀ i, extra i = none) ∧
        ((∃ x, c.argv ≠ [] ∧ os.pipe = .ok x) →
          (∃ e, tryClone os = .error e) → ∃ a r, m.next ≤ a ∧ extra a = some (.params r))) := by
  have base : ∀ n, (⟨m.blocks, n⟩ : LMem) = ⟨fun i => if m.next ≤ i then (fun _ => none) i else m.blocks i, n⟩ := by
    intro n
    congr 1
    funext i
    by_cases h : m.next ≤ i
    · rw [if_pos h, hf i h]
    · rw [if_neg h]
  simp only [newProcessMem, newProcess]
  by_cases hargv : c.argv = []
  · simp only [if_pos hargv]
    refine ⟨m.next, none, fun _ => none, ?_, rfl, fun _ _ => rfl, ?_⟩
    · rw [← base]
    · rintro ⟨x, h, _⟩; exact absurd hargv h
  simp only [if_neg hargv]
  have hfd := fds_mem m hf
  simp only [LMem.alloc] at hfd ⊢
  rw [hfd]
  simp only [Option.bind_some]
  cases hp : os.pipe with
  | error e =>
    refine ⟨m.next + 1, none, fun _ => none, by rw [← base], rfl, fun _ _ => rfl, ?_⟩
    rintro ⟨x, _, h⟩; cases h
  | ok x =>
    obtain ⟨r, w⟩ := x
    simp only
    generalize hsi : setInheritable ((t.alloc ⟨r, 0#32⟩).2.alloc ⟨w, 0#32⟩).2
      ((t.alloc ⟨r, 0#32⟩).2.alloc ⟨w, 0#32⟩).1 false = si
    obtain ⟨si, t'⟩ := si
    cases si with
    | error e =>
      rw [pipe_inheritable] at hsi
      cases hsi
    | ok u =>
      simp only
      have hst := start_mem p c at' t' caps os w (t.alloc ⟨r, 0#32⟩).1 ((t.alloc ⟨r, 0#32⟩).2.alloc ⟨w, 0#32⟩).1
        ⟨m.blocks, m.next + 1⟩ (fresh_next hf _ (by omega)) (stored_next hs _)
      cases htc : tryClone os with
      | error e =>
        simp only [htc] at hst ⊢
        obtain ⟨n, hst⟩ := hst
        refine ⟨n, none, fun i => if i = m.next + 6 then some (.params (rawParams (m.next + 1) p c at' os
          ((t.alloc ⟨r, 0#32⟩).2.alloc ⟨w, 0#32⟩).1)) else none, ?_, rfl, ?_, ?_⟩
        · rw [hst]
          simp only [Option.some.injEq, Prod.mk.injEq, LMem.mk.injEq, true_and, and_true]
          funext i
          by_cases h6 : i = m.next + 6
          · rw [if_pos h6, if_pos (by omega), if_pos h6]
          · rw [if_neg h6, if_neg h6]
            by_cases h : m.next ≤ i
            · rw [if_pos h, hf i h]
            · rw [if_neg h]
        · simp only [tryClone] at htc
          rintro (⟨x, h⟩ | ⟨x, h⟩ | ⟨x, h⟩) <;> rw [h] at htc
          · cases htc
          · cases h1 : os.clone1 <;> rw [h1] at htc <;> cases htc
          · cases h1 : os.clone1 <;> cases h2 : os.clone2 <;> rw [h1, h2] at htc <;> cases htc
        · intro _ _
          exact ⟨m.next + 6, _, by omega, if_pos rfl⟩
      | ok x =>
        obtain ⟨pid, u, ns⟩ := x
        simp only [htc] at hst ⊢
        generalize hres : readErrno os w pid (cloneEntrypoint os.entry (entryParams p c os
          ((t.alloc ⟨r, 0#32⟩).2.alloc ⟨w, 0#32⟩).1) t' caps) = res at hst ⊢
        cases res with
        | error e =>
          simp only at hst ⊢
          obtain ⟨n, hst⟩ := hst
          refine ⟨n, none, fun _ => none, ?_, rfl, fun _ _ => rfl, ?_⟩
          · rw [hst, base]
          · rintro _ ⟨e, h⟩; cases h
        | ok v =>
          simp only at hst ⊢
          obtain ⟨a, n, ha, hst⟩ := hst
          refine ⟨n, some a, fun i => if i = a then some (.stack (1024 * 1024)) else none, ?_, a, by omega, rfl,
            fun i => rfl⟩
          rw [hst]
          simp only [Option.some.injEq, Prod.mk.injEq, LMem.mk.injEq, true_and, and_true]
          funext i
          by_cases hi : i = a
          · rw [if_pos hi, if_pos (by omega), if_pos hi]
          · rw [if_neg hi, if_neg hi]
            by_cases h : m.next ≤ i
            · rw [if_pos h, hf i h]
            · rw [if_neg h]

/-- **C126**. Whatever the memory holds, with the strings of a configuration in it: creating a process uses no memory
that is not there, and the new process, following the pointers it is given, finds just what was configured: all goes as
in C36 to C44, where it is given the values themselves. -/
theorem C126_no_undefined_behaviour (p : Policy) (c : ProcessConfig) (at' : ConfigAt) (t : FdTable) (caps : Caps)
    (os : ProcOs) (m : LMem) (hf : FreshMem m) (hs : Stored m c at') :
    ∃ stack m', newProcessMem p c at' t caps os m = some (newProcess p c t caps os, stack, m') := by
  obtain ⟨n, stack, extra, h, _⟩ := new_mem p c at' t caps os m hf hs
  exact ⟨_, _, h⟩

/-- **C126**, the program: it is started with the configured executable, arguments and environment. -/
theorem C126_program (p : Policy) (c : ProcessConfig) (at' : ConfigAt) (t : FdTable) (caps : Caps)
    (os : ProcOs) (m : LMem) (hf : FreshMem m) (hs : Stored m c at') (run : ProcRun) (stack : Option Nat) (m' : LMem)
    (h : newProcessMem p c at' t caps os m = some (run, stack, m')) (ch : Child) (img : Image) (hc : run.child = some ch)
    (hi : ch.ending = .started img) : img.exe = c.exe ∧ img.argv = c.argv ∧ img.envp = c.envp := by
  obtain ⟨s', m1, h1⟩ := C126_no_undefined_behaviour p c at' t caps os m hf hs
  rw [h1] at h
  simp only [Option.some.injEq, Prod.mk.injEq] at h
  obtain ⟨rfl, _, _⟩ := h
  simp only [newProcess] at hc
  split at hc
  · cases hc
  · split at hc
    · cases hc
    · split at hc
      · cases hc
      · split at hc
        · cases hc
        · simp only [Option.some.injEq] at hc
          subst hc
          simp only [cloneEntrypoint] at hi
          split at hi
          · cases hi
          · simp only [execOrReport] at hi
            split at hi
            · cases hi; exact ⟨rfl, rfl, rfl⟩
            · cases hi

/-- **C126**, what is left. If some attempt to create the process is not refused, or there is an error before: after an
error all memory is given back; after success only the stack of the new process is kept, in a place that was free, until
the process is dropped. Missing: the case of C126_violated. -/
theorem C126_given_back_partial (p : Policy) (c : ProcessConfig) (at' : ConfigAt) (t : FdTable) (caps : Caps)
    (os : ProcOs) (m : LMem) (hf : FreshMem m) (hs : Stored m c at')
    (ho : (∃ x, os.clone1 = .ok x) ∨ (∃ x, os.clone2 = .ok x) ∨ (∃ x, os.clone3 = .ok x))
    (run : ProcRun) (stack : Option Nat) (m' : LMem)
    (h : newProcessMem p c at' t caps os m = some (run, stack, m')) :
    (∀ e, run.result = .error e → stack = none ∧ m'.blocks = m.blocks) ∧
    (∀ pid, run.result = .ok pid → ∃ a m'', stack = some a ∧ m.blocks a = none ∧
      (∀ i, i ≠ a → m'.blocks i = m.blocks i) ∧ dropProcessMem a m' = some m'' ∧ m''.blocks = m.blocks) := by
  obtain ⟨n, stack', extra, h1, h2⟩ := new_mem p c at' t caps os m hf hs
  rw [h1] at h
  simp only [Option.some.injEq, Prod.mk.injEq] at h
  obtain ⟨rfl, rfl, rfl⟩ := h
  refine ⟨fun e he => ?_, fun pid he => ?_⟩
  · rw [he] at h2
    refine ⟨h2.1, ?_⟩
    funext i
    simp only
    by_cases hi : m.next ≤ i
    · rw [if_pos hi, h2.2.1 ho i, hf i hi]
    · rw [if_neg hi]
  · rw [he] at h2
    obtain ⟨a, ha, rfl, hx⟩ := h2
    refine ⟨a, ⟨fun i => if i ∈ [a] then none else if m.next ≤ i then extra i else m.blocks i, n⟩, rfl, hf a ha, ?_, ?_, ?_⟩
    · intro i hi
      simp only
      by_cases h : m.next ≤ i
      · rw [if_pos h, hx, if_neg hi, hf i h]
      · rw [if_neg h]
    · exact drops_all [a] _ (by simp) (by simp [ha, hx])
    · funext i
      simp only [List.mem_cons, List.not_mem_nil, or_false]
      by_cases hi : i = a
      · rw [if_pos hi, hi, hf a ha]
      · rw [if_neg hi]
        by_cases h : m.next ≤ i
        · rw [if_pos h, hx, if_neg hi, hf i h]
        · rw [if_neg h]

/-- C126 is false if all attempts to create the process are refused: the parameters, a box that was leaked, are never
freed. -/
theorem C126_violated (p : Policy) (c : ProcessConfig) (at' : ConfigAt) (t : FdTable) (caps : Caps)
    (os : ProcOs) (m : LMem) (hf : FreshMem m) (hs : Stored m c at') (hargv : c.argv ≠ []) (r w e1 e2 e3 : Nat)
    (hp : os.pipe = .ok (r, w)) (h1 : os.clone1 = .error e1) (h2 : os.clone2 = .error e2) (h3 : os.clone3 = .error e3) :
    ∃ run m' a e, newProcessMem p c at' t caps os m = some (run, none, m') ∧ run.child = none ∧ run.result = .error e ∧
      m.blocks a = none ∧ m'.blocks a ≠ none := by
  obtain ⟨n, stack', extra, h4, h5⟩ := new_mem p c at' t caps os m hf hs
  have htc : tryClone os = .error (.internalOsOperationFailed c!"clone() failed" e3) := by
    simp only [tryClone, h1, h2, h3]
  have hnew : ∃ t' e, newProcess p c t caps os = ⟨.error e, t', none⟩ := by
    simp only [newProcess, if_neg hargv, hp, pipe_inheritable, htc]
    exact ⟨_, _, rfl⟩
  obtain ⟨t', e, hnew⟩ := hnew
  rw [hnew] at h4 h5
  obtain ⟨rfl, _, h6⟩ := h5
  obtain ⟨a, r, ha, hx⟩ := h6 ⟨_, hargv, hp⟩ ⟨_, htc⟩
  refine ⟨_, _, a, e, h4, rfl, rfl, hf a ha, ?_⟩
  simp only [if_pos ha, hx]
  exact fun h => by cases h

/-! A configuration in memory. -/

def demoStrings : LMem where
  blocks
    | 0 => some (.bytes (utf8 c!"/bin/x" ++ [0]))
    | 1 => some (.bytes (utf8 c!"x" ++ [0]))
    | 2 => some (.bytes (utf8 c!"-v" ++ [0]))
    | 3 => some (.bytes (utf8 c!"A=1" ++ [0]))
    | 7 => some (.stack 5)
    | _ => none
  next := 8

def demoAt : ConfigAt := ⟨0, [1, 2], [3]⟩

theorem demo_stored : Stored demoStrings someConfig demoAt where
  exe := ⟨by decide +kernel, by decide +kernel⟩
  argvLength := by decide +kernel
  argv := by
    have : demoAt.argv.zip someConfig.argv = [(1, utf8 c!"x"), (2, utf8 c!"-v")] := by decide +kernel
    rw [this]
    simp only [List.mem_cons, List.not_mem_nil, or_false, forall_eq_or_imp, forall_eq]
    exact ⟨⟨rfl, by decide +kernel⟩, ⟨rfl, by decide +kernel⟩⟩
  envpLength := by decide +kernel
  envp := by
    have : demoAt.envp.zip someConfig.envp = [(3, utf8 c!"A=1")] := by decide +kernel
    rw [this]
    simp only [List.mem_cons, List.not_mem_nil, or_false, forall_eq]
    exact ⟨rfl, by decide +kernel⟩

example : FreshMem demoStrings := by
  intro a h
  match a, h with
  | a + 8, _ => rfl

/-- A program is started; the stack of the process is kept at address 16 (the first attempt was refused). -/
example : ((newProcessMem tmpPolicy someConfig demoAt brokerTable fullCaps goodOs.proc demoStrings).map fun x =>
    (x.1.result.toOption, x.2.1, (List.range 20).map fun i => (x.2.2.blocks i).isSome)) =
    some (some 4321, some 16, (List.range 20).map fun i => decide (i ∈ [0, 1, 2, 3, 7, 16])) := by
  decide +kernel

/-- With all attempts refused, the parameters stay at address 14. -/
example : ((newProcessMem tmpPolicy someConfig demoAt brokerTable fullCaps
    { goodOs.proc with clone1 := .error 1, clone2 := .error 1, clone3 := .error 11 } demoStrings).map fun x =>
    (x.1.result.toOption, x.2.1, (List.range 20).map fun i => (x.2.2.blocks i).isSome)) =
    some (none, none, (List.range 20).map fun i => decide (i ∈ [0, 1, 2, 3, 7, 14])) := by
  decide +kernel

/-- Parameters that point to memory which is not there any more are not read. -/
example : ((childMemory 0x100#32 demoStrings ⟨fun _ => none, 8⟩).readParams 5) = none := by decide +kernel

end Iris
