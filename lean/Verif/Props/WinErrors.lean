import Verif.Spec.WinErrors
import Verif.Props.WinLaunch
import Verif.Props.CreationError
/-!
# Which error a failed creation of a Windows worker gives (C130)
-/
namespace Iris
open Spec

/-! ## The channel -/

theorem finishChannelErr_agrees (w : PipeWorld) (h1 h2 : BitVec 64) (r : PipeRound) :
    match (finishChannel w h1 h2 r).1 with
    | .error code => ∃ x, finishChannelErr w h1 h2 r = some x ∧ x.2 = code.toNat ∧ ChannelCause r (OsFailure.error x)
    | _ => finishChannelErr w h1 h2 r = none := by
  simp only [finishChannel, finishChannelErr]
  cases hc : r.connect <;> cases hb : (w.others r.before3).connected h1 <;> cases hs : r.setMode <;>
    simp only [Option.map_none, Option.map_some, if_true, if_false, Bool.false_eq_true]
  · by_cases hw : ((w.others r.before3).others r.waiting).connected h1 = true
    · rw [if_pos hw, if_pos hw]
    · rw [if_neg hw, if_neg hw]
  · next code =>
    by_cases hw : ((w.others r.before3).others r.waiting).connected h1 = true
    · rw [if_pos hw, if_pos hw]; exact ⟨_, rfl, rfl, .setMode hs⟩
    · rw [if_neg hw, if_neg hw]
  · next code => exact ⟨_, rfl, rfl, .setMode hs⟩
  · next code => exact ⟨_, rfl, rfl, .connect hc⟩
  · next code _ => exact ⟨_, rfl, rfl, .connect hc⟩
  · next code => exact ⟨_, rfl, rfl, .setMode hs⟩

theorem channelAttemptErr_agrees (w : PipeWorld) (name : Bytes) (r : PipeRound) :
    match (channelAttempt w name r).1 with
    | .error code => ∃ x, channelAttemptErr w name r = some x ∧ x.2 = code.toNat ∧ ChannelCause r (OsFailure.error x)
    | _ => channelAttemptErr w name r = none := by
  simp only [channelAttempt, channelAttemptErr]
  cases hc : createNamedPipe (w.others r.before1) name r.create with
  | mk res w1 =>
    cases res with
    | error code =>
      simp only []
      by_cases h5 : code = 5
      · rw [if_pos h5, if_pos h5]
      · rw [if_neg h5, if_neg h5]
        refine ⟨_, rfl, rfl, .create ?_⟩
        simp only [createNamedPipe] at hc
        split at hc
        · exact absurd (Except.error.inj (Prod.mk.inj hc).1).symm h5
        · split at hc
          · next e he => cases hc; exact .inl ⟨he, h5⟩
          · split at hc
            · cases hc
            · cases hc; exact .inr ⟨⟨_, by assumption⟩, rfl⟩
    | ok h1 =>
      simp only []
      cases ho : openPipe (w1.others r.before2) name r.open_ with
      | mk res w2 =>
        cases res with
        | error code =>
          refine ⟨_, rfl, rfl, .open_ ?_⟩
          simp only [openPipe] at ho
          split at ho
          · next e he => cases ho; exact .inl he
          · split at ho
            · split at ho
              · cases ho
              · cases ho; exact .inr ⟨⟨_, by assumption⟩, .inl rfl⟩
            · cases ho; exact .inr ⟨⟨_, by assumption⟩, .inr rfl⟩
        | ok h2 => exact finishChannelErr_agrees w2 h1 h2 r

theorem channelNewErr_agrees (pid : BitVec 32) (rounds : Nat → PipeRound) (n : Nat) : ∀ (k : Nat) (id : BitVec 32)
    (w pw : PipeWorld) (code : BitVec 32), channelNew pid rounds n k id w = some (.error code, pw) →
    ∃ j x, channelNewErr pid rounds n k id w = some x ∧ x.2 = code.toNat ∧ ChannelCause (rounds j) (OsFailure.error x) := by
  induction n with
  | zero => intro k id w pw code h; cases h
  | succ n ih =>
    intro k id w pw code h
    rw [channelNew, pipeName_eq, Option.bind_some] at h
    rw [channelNewErr, pipeName_eq, Option.bind_some]
    have ha := channelAttemptErr_agrees w (nameOf pid (id + 1)) (rounds k)
    generalize channelAttempt w (nameOf pid (id + 1)) (rounds k) = r at h ha ⊢
    obtain ⟨o, w'⟩ := r
    cases o with
    | again => exact ih _ _ _ _ _ h
    | error code' =>
      cases h
      obtain ⟨x, h1, h2, h3⟩ := ha
      exact ⟨k, x, h1, h2, h3⟩
    | channel a b => cases h
    | hangs => cases h

/-- **C130**, the channel. If it cannot be created, the error names the call that failed and holds the code the system gave. -/
theorem C130_channel (codes : LaunchCodes) (os : LaunchOs) (p : Policy) (c : ProcessConfig) (w : WinWorld) (pipes : PipeWorld)
    (code : BitVec 32) (h : channelNew os.pid os.pipes os.tries 0 0 w.pw = some (.error code, pipes)) :
    (∃ w', winWorkerNew os p c w = (.error none, w')) ∧
    ∃ k e, winWorkerErr codes os p c w = some e ∧ ChannelCause (os.pipes k) e ∧
      ∃ d, e = .internalOsOperationFailed d code.toNat := by
  obtain ⟨k, x, h1, h2, h3⟩ := channelNewErr_agrees _ _ _ _ _ _ _ _ h
  refine ⟨⟨_, by rw [winWorkerNew, h]⟩, k, OsFailure.error x, by rw [winWorkerErr, h, h1]; rfl, h3, x.1, ?_⟩
  rw [OsFailure.error, h2]

/-! ## The loop -/

/-- Why an attempt failed. -/
def FailureAt (codes : LaunchCodes) (cmdline : Bytes) (rounds : Nat → WinRound) (k : Nat) (x : OsFailure) : Prop :=
  (rounds k).listOk = false ∧ x = (c!"InitializeProcThreadAttributeList()", (codes.list k).toNat) ∨
  (rounds k).listOk = true ∧ (rounds k).createOk = false ∧
    x = (c!"CreateProcess(" ++ (fromUtf8 cmdline).getD (codes.replace cmdline) ++ c!") failed", (codes.create k).toNat) ∨
  (rounds k).listOk = true ∧ (rounds k).createOk = true ∧ (rounds k).pid = 0#32 ∧
    x = (c!"GetProcessId() failed", (codes.getPid k).toNat)

theorem trySet_same (wanted : Bool) (r : WinRound) (a : ProcAttr) (l l' : List ProcAttr) :
    (trySet wanted r a l = none ↔ trySet wanted r a l' = none) := by
  simp only [trySet]
  split
  · split <;> simp
  · simp

theorem winFinishErr_agrees (codes : LaunchCodes) (cmdline : Bytes) (inherited : List (BitVec 64)) (f : WinFlags) (slots : Nat)
    (attributes : List ProcAttr) (profile : Option Nat) (s : WinStart) (rounds : Nat → WinRound) (k : Nat)
    (hl : (rounds k).listOk = true) :
    match winFinish inherited f slots attributes profile s (rounds k) with
    | .again _ _ => winFinishErr codes cmdline inherited f k (rounds k) = none
    | .created _ _ => winFinishErr codes cmdline inherited f k (rounds k) = none ∧ (rounds k).createOk = true ∧
        (rounds k).pid ≠ 0#32
    | .failed _ => ∃ x, winFinishErr codes cmdline inherited f k (rounds k) = some x ∧ FailureAt codes cmdline rounds k x := by
  simp only [winFinish, winFinishErr]
  have e1 := trySet_same f.filterHandles (rounds k) (.handleList (handlesToInherit inherited)) attributes []
  cases h1 : trySet f.filterHandles (rounds k) (.handleList (handlesToInherit inherited)) attributes with
  | none => rw [e1.1 h1]
  | some a1 =>
    cases h1' : trySet f.filterHandles (rounds k) (.handleList (handlesToInherit inherited)) [] with
    | none => rw [e1.2 h1'] at h1; cases h1
    | some b1 =>
      simp only []
      have e2 := trySet_same f.blockChildren (rounds k) (.childProcessPolicy 1) a1 []
      cases h2 : trySet f.blockChildren (rounds k) (.childProcessPolicy 1) a1 with
      | none => rw [e2.1 h2]
      | some a2 =>
        cases h2' : trySet f.blockChildren (rounds k) (.childProcessPolicy 1) [] with
        | none => rw [e2.2 h2'] at h2; cases h2
        | some b2 =>
          simp only []
          have e3 := trySet_same f.mitigations (rounds k) (.mitigationPolicy mitigationValue) a2 []
          cases h3 : trySet f.mitigations (rounds k) (.mitigationPolicy mitigationValue) a2 with
          | none => rw [e3.1 h3]
          | some a3 =>
            cases h3' : trySet f.mitigations (rounds k) (.mitigationPolicy mitigationValue) [] with
            | none => rw [e3.2 h3'] at h3; cases h3
            | some b3 =>
              simp only []
              cases hc : (rounds k).createOk with
              | true =>
                simp only [if_true]
                by_cases hp : (rounds k).pid = 0
                · rw [if_pos hp, if_pos hp]
                  exact ⟨_, rfl, .inr (.inr ⟨hl, hc, hp, rfl⟩)⟩
                · rw [if_neg hp, if_neg hp]
                  exact ⟨rfl, trivial, hp⟩
              | false =>
                simp only [Bool.false_eq_true, if_false]
                cases hm : f.mitigations with
                | true => simp only [if_true]
                | false =>
                  simp only [Bool.false_eq_true, if_false]
                  exact ⟨_, rfl, .inr (.inl ⟨hl, hc, rfl⟩)⟩

theorem winAttemptErr_agrees (codes : LaunchCodes) (cmdline : Bytes) (supported : Bool) (inherited : List (BitVec 64))
    (f : WinFlags) (s : WinStart) (rounds : Nat → WinRound) (k : Nat) :
    match winAttempt supported inherited f s (rounds k) with
    | .again _ _ => winAttemptErr codes cmdline supported inherited f s k (rounds k) = none
    | .created _ _ => winAttemptErr codes cmdline supported inherited f s k (rounds k) = none ∧
        (rounds k).listOk = true ∧ (rounds k).createOk = true ∧ (rounds k).pid ≠ 0#32
    | .failed _ => ∃ x, winAttemptErr codes cmdline supported inherited f s k (rounds k) = some x ∧
        FailureAt codes cmdline rounds k x := by
  simp only [winAttempt, winAttemptErr]
  generalize (if f.appContainer = true then f else { f with lessPrivileged := false }) = f
  cases hl : (rounds k).listOk with
  | false => exact ⟨_, rfl, .inl ⟨hl, rfl⟩⟩
  | true =>
    simp only [if_true]
    have fin := fun slots attributes profile s' =>
      winFinishErr_agrees codes cmdline inherited f slots attributes profile s' rounds k hl
    have conv : ∀ r, (match r with
        | .again _ _ => winFinishErr codes cmdline inherited f k (rounds k) = none
        | .created _ _ => winFinishErr codes cmdline inherited f k (rounds k) = none ∧ (rounds k).createOk = true ∧
            (rounds k).pid ≠ 0#32
        | .failed _ => ∃ x, winFinishErr codes cmdline inherited f k (rounds k) = some x ∧
            FailureAt codes cmdline rounds k x : Prop) →
        (match r with
        | WinAttempt.again _ _ => winFinishErr codes cmdline inherited f k (rounds k) = none
        | .created _ _ => winFinishErr codes cmdline inherited f k (rounds k) = none ∧ True ∧
            (rounds k).createOk = true ∧ (rounds k).pid ≠ 0#32
        | .failed _ => ∃ x, winFinishErr codes cmdline inherited f k (rounds k) = some x ∧
            FailureAt codes cmdline rounds k x : Prop) := by
      intro r h
      cases r with
      | again _ _ => exact h
      | created _ _ => exact ⟨h.1, trivial, h.2⟩
      | failed _ => exact h
    cases ha : f.appContainer with
    | false =>
      simp only [Bool.false_eq_true, if_false]
      exact conv _ (fin _ _ _ _)
    | true =>
      simp only [if_true]
      cases supported with
      | false => simp only [Bool.false_eq_true, if_false]
      | true =>
        simp only [if_true]
        cases hc : createProfile s (rounds k) with
        | mk b s' =>
          cases b with
          | false => simp only []
          | true =>
            simp only []
            cases h1 : trySet true (rounds k) (.securityCapabilities s.nextId) [] with
            | none => simp only []
            | some a1 =>
              simp only []
              have e2 := trySet_same f.lessPrivileged (rounds k) (.allApplicationPackagesPolicy 1) a1 []
              cases h2 : trySet f.lessPrivileged (rounds k) (.allApplicationPackagesPolicy 1) a1 with
              | none => rw [e2.1 h2]
              | some a2 =>
                cases h2' : trySet f.lessPrivileged (rounds k) (.allApplicationPackagesPolicy 1) [] with
                | none => rw [e2.2 h2'] at h2; cases h2
                | some b2 =>
                  simp only []
                  exact conv _ (fin _ _ _ _)

theorem winLoopErr_agrees (codes : LaunchCodes) (cmdline : Bytes) (supported : Bool) (inherited : List (BitVec 64))
    (rounds : Nat → WinRound) (n : Nat) : ∀ (k : Nat) (f : WinFlags) (s : WinStart),
    match winLoop supported inherited rounds n k f s with
    | .again _ _ => winLoopErr codes cmdline supported inherited rounds n k f s = none
    | .created _ _ => winLoopErr codes cmdline supported inherited rounds n k f s = none ∧
        ∃ j, (rounds j).listOk = true ∧ (rounds j).createOk = true ∧ (rounds j).pid ≠ 0#32
    | .failed _ => ∃ j x, winLoopErr codes cmdline supported inherited rounds n k f s = some x ∧ k ≤ j ∧
        FailureAt codes cmdline rounds j x ∧
        (∀ codes' rounds', (∀ i, i < j → rounds' i = rounds i) → (rounds' j).listOk = false →
          winLoopErr codes' cmdline supported inherited rounds' n k f s =
            some (c!"InitializeProcThreadAttributeList()", (codes'.list j).toNat)) ∧
        ∀ rounds', (∀ i, i ≤ j → rounds' i = rounds i) → winLoopErr codes cmdline supported inherited rounds' n k f s = some x := by
  induction n with
  | zero => exact fun k f s => rfl
  | succ n ih =>
    intro k f s
    have ha := winAttemptErr_agrees codes cmdline supported inherited f s rounds k
    simp only [winLoop, winLoopErr]
    cases hw : winAttempt supported inherited f s (rounds k) with
    | again f' s' =>
      have := ih (k + 1) f' s'
      simp only []
      cases hl : winLoop supported inherited rounds n (k + 1) f' s' with
      | again _ _ => rw [hl] at this; exact this
      | created _ _ => rw [hl] at this; exact this
      | failed _ =>
        rw [hl] at this
        obtain ⟨j, x, h1, h2, h3, h4, h5⟩ := this
        refine ⟨j, x, h1, by omega, h3, fun codes' rounds' hr hn => ?_, fun rounds' hr => ?_⟩
        · rw [hr k (by omega), hw]
          exact h4 codes' rounds' hr hn
        · rw [hr k (by omega), hw]
          exact h5 rounds' hr
    | created q s' => rw [hw] at ha; exact ⟨ha.1, k, ha.2⟩
    | failed s' =>
      rw [hw] at ha
      obtain ⟨x, h1, h2⟩ := ha
      refine ⟨k, x, h1, Nat.le_refl _, h2, fun codes' rounds' hr hn => ?_, fun rounds' hr => ?_⟩
      · have hf : ∃ s'', winAttempt supported inherited f s (rounds' k) = .failed s'' := by
          simp only [winAttempt, hn, Bool.false_eq_true, if_false]
          exact ⟨_, rfl⟩
        obtain ⟨s'', hf⟩ := hf
        rw [hf]
        simp only [winAttemptErr, hn, Bool.false_eq_true, if_false]
      · rw [hr k (Nat.le_refl _), hw]
        exact h1

/-! ## The whole -/

/-- Steps 1 to 5. -/
theorem winPrepare_cause (codes : LaunchCodes) (os : LaunchOs) (p : Policy) (c : ProcessConfig) (w : WinWorld) (line : Str)
    (round : Nat) (pw : PipeWorld) (b : BitVec 64) (x y : Nat) (a : BitVec 64) (hpw : pw.handles = (b, y) :: (a, x) :: w.pw.handles)
    (hb : w.pw.handles.free b = true) (ha : w.pw.handles.free a = true) (hi : os.setInheritable = true)
    (hopen : ∀ raw ∈ streams c, w.pw.handles.get (BitVec.ofNat 64 raw) ≠ none) :
    match winPrepare { w with pw := pw, inheritable := b :: w.inheritable } p c b with
    | .error e => ∃ n, n < 6 ∧ WinCause codes os c w line round n e ∧
        ∀ m, m < n → ∀ e', ¬ WinCause codes os c w line round m e'
    | .ok (_, c') => c'.exe = c.exe ∧ c'.argv = c.argv ∧ ∀ n, n < 6 → ∀ e, ¬ WinCause codes os c w line round n e := by
  have hfree : ∀ raw ∈ streams c, BitVec.ofNat 64 raw ≠ b ∧ pw.handles.get (BitVec.ofNat 64 raw) ≠ none := by
    intro raw hr
    have h0 := hopen raw hr
    have hne : BitVec.ofNat 64 raw ≠ b := fun h => h0 (by rw [h]; exact ((HTable.free_iff _ _).1 hb).2)
    have hna : BitVec.ofNat 64 raw ≠ a := fun h => h0 (by rw [h]; exact ((HTable.free_iff _ _).1 ha).2)
    refine ⟨hne, ?_⟩
    rw [hpw, HTable.get_cons_ne _ _ (Ne.symm hne), HTable.get_cons_ne _ _ (Ne.symm hna)]
    exact h0
  have one : ∀ (p : Policy) raw, raw ∈ streams c →
      (BitVec.ofNat 64 raw ∈ w.inheritable ∧
        ∃ p', winAllow { w with pw := pw, inheritable := b :: w.inheritable } p raw = .ok p') ∨
      (BitVec.ofNat 64 raw ∉ w.inheritable ∧
        winAllow { w with pw := pw, inheritable := b :: w.inheritable } p raw =
          .error (.cannotBuildPolicyForWorker (.handleNotInheritable raw))) := by
    intro p raw hr
    obtain ⟨hne, hg⟩ := hfree raw hr
    obtain ⟨o, ho⟩ := Option.ne_none_iff_exists'.1 hg
    by_cases h : BitVec.ofNat 64 raw ∈ w.inheritable
    · refine .inl ⟨h, ?_⟩
      simp [winAllow, winIsInheritable, ho, Policy.allowInheritHandle, h]
    · refine .inr ⟨h, ?_⟩
      simp [winAllow, winIsInheritable, ho, Policy.allowInheritHandle, h, hne]
  have more : ∀ (l : List Nat) (p : Policy), (∀ raw ∈ l, raw ∈ streams c) →
      ((∀ raw ∈ l, BitVec.ofNat 64 raw ∈ w.inheritable) ∧
        ∃ p', winAllowAll { w with pw := pw, inheritable := b :: w.inheritable } p l = .ok p') ∨
      ∃ pre raw post, l = pre ++ raw :: post ∧ (∀ x ∈ pre, BitVec.ofNat 64 x ∈ w.inheritable) ∧
        BitVec.ofNat 64 raw ∉ w.inheritable ∧
        winAllowAll { w with pw := pw, inheritable := b :: w.inheritable } p l =
          .error (.cannotBuildPolicyForWorker (.handleNotInheritable raw)) := by
    intro l
    induction l with
    | nil => exact fun p _ => .inl ⟨by simp, p, rfl⟩
    | cons raw l ih =>
      intro p hl
      rw [winAllowAll]
      rcases one p raw (hl raw List.mem_cons_self) with ⟨h1, p', h2⟩ | ⟨h1, h2⟩
      · rw [h2]
        simp only []
        rcases ih p' (fun x hx => hl x (List.mem_cons_of_mem _ hx)) with ⟨h3, h4⟩ | ⟨pre, x, post, rfl, h4, h5, h6⟩
        · refine .inl ⟨fun x hx => ?_, h4⟩
          rcases List.mem_cons.1 hx with rfl | hx
          · exact h1
          · exact h3 x hx
        · refine .inr ⟨raw :: pre, x, post, rfl, fun y hy => ?_, h5, h6⟩
          rcases List.mem_cons.1 hy with rfl | hy
          · exact h1
          · exact h4 y hy
      · rw [h2]
        exact .inr ⟨[], raw, l, rfl, by simp, h1, rfl⟩
  have hself : ∃ p1, winAllow { w with pw := pw, inheritable := b :: w.inheritable } p b.toNat = .ok p1 := by
    simp [winAllow, winIsInheritable, hpw, HTable.get_cons, Policy.allowInheritHandle]
  obtain ⟨p1, hp1⟩ := hself
  have c1 : ∀ m, m < 2 → ∀ e, ¬ WinCause codes os c w line round m e := by
    intro m hm e h
    cases h with
    | inherit h => rw [hi] at h; cases h
    | _ => omega
  rw [winPrepare, hp1]
  simp only []
  have hst : ∀ raw ∈ [c.stdin, c.stdout, c.stderr].filterMap id, raw ∈ streams c := by
    intro raw h
    simpa [streams] using h
  rcases more _ p1 hst with ⟨h1, p', h2⟩ | ⟨pre, raw, post, hl, h1, h2, h3⟩
  · rw [h2]
    simp only []
    have hin : ∀ raw, c.stdin = some raw ∨ c.stdout = some raw ∨ c.stderr = some raw → BitVec.ofNat 64 raw ∈ w.inheritable :=
      fun raw h => h1 raw (mem_streams.2 h)
    have c4 : ∀ m, m < 5 → ∀ e, ¬ WinCause codes os c w line round m e := by
      intro m hm e h
      cases h with
      | inherit h => rw [hi] at h; cases h
      | stdin h hn => exact hn (hin _ (.inl h))
      | stdout h hn => exact hn (hin _ (.inr (.inl h)))
      | stderr h hn => exact hn (hin _ (.inr (.inr h)))
      | _ => omega
    rw [ProcessConfig.setEnv]
    by_cases hany : c.envp.any (fun prev => nameFromEnv prev == nameFromEnv (ipcHandleVar b.toNat)) = true
    · rw [if_pos hany]
      simp only []
      rw [nameFromEnv_ipc]
      obtain ⟨v, hv, hx⟩ := List.any_eq_true.1 hany
      rw [beq_iff_eq, nameFromEnv_ipc] at hx
      exact ⟨5, by omega, .environment hv ((nameFromEnv_spec v _).1 hx), c4⟩
    · rw [if_neg hany]
      refine ⟨rfl, rfl, ?_⟩
      intro m hm e h
      rcases Nat.lt_or_ge m 5 with hm' | hm'
      · exact c4 m hm' e h
      · cases h with
        | environment hv hn =>
          apply hany
          rw [List.any_eq_true]
          refine ⟨_, hv, ?_⟩
          rw [beq_iff_eq, nameFromEnv_ipc]
          exact (nameFromEnv_spec _ _).2 hn
        | _ => omega
  · rw [h3]
    simp only []
    have which : c.stdin = some raw ∨ (c.stdout = some raw ∧ ∀ x, c.stdin = some x → BitVec.ofNat 64 x ∈ w.inheritable) ∨
        (c.stderr = some raw ∧ (∀ x, c.stdin = some x → BitVec.ofNat 64 x ∈ w.inheritable) ∧
          ∀ x, c.stdout = some x → BitVec.ofNat 64 x ∈ w.inheritable) := by
      clear hst h3 one more hfree hopen
      generalize c.stdin = s0 at hl ⊢
      generalize c.stdout = s1 at hl ⊢
      generalize c.stderr = s2 at hl ⊢
      rcases pre with _ | ⟨x, _ | ⟨y, _ | ⟨z, pre⟩⟩⟩ <;> cases s0 <;> cases s1 <;> cases s2 <;>
        simp at hl h1 ⊢ <;> grind
    rcases which with h | ⟨h, i0⟩ | ⟨h, i0, i1⟩
    · exact ⟨2, by omega, .stdin h h2, c1⟩
    · refine ⟨3, by omega, .stdout h h2, fun m hm e hx => ?_⟩
      cases hx with
      | inherit h => rw [hi] at h; cases h
      | stdin h' hn => exact hn (i0 _ h')
      | _ => omega
    · refine ⟨4, by omega, .stderr h h2, fun m hm e hx => ?_⟩
      cases hx with
      | inherit h => rw [hi] at h; cases h
      | stdin h' hn => exact hn (i0 _ h')
      | stdout h' hn => exact hn (i1 _ h')
      | _ => omega

/-- The command line as text. -/
def lineText (codes : LaunchCodes) (c : ProcessConfig) : Str :=
  match winCommandLine c.exe c.argv with
  | some l => (fromUtf8 l).getD (codes.replace l)
  | none => []

/-- **C130**, after the channel. The error of a creation that fails is that of the first step that failed, with the code
of the system, in the last attempt for what is attempted several times; if it succeeds no step has failed. Assumed: the streams are open handles, and new handles have
values that were not in use. -/
theorem C130_first_cause (codes : LaunchCodes) (os : LaunchOs) (p : Policy) (c : ProcessConfig) (w : WinWorld) (pw : PipeWorld)
    (a b : BitVec 64) (hc : channelNew os.pid os.pipes os.tries 0 0 w.pw = some (.channel a b, pw))
    (hopen : ∀ raw ∈ streams c, w.pw.handles.get (BitVec.ofNat 64 raw) ≠ none)
    (hp : pw.handles.free os.hProcess = true)
    (ho : ∀ h, os.opened = some h → pw.handles.free h = true ∧ h ≠ os.hProcess) :
    match (winWorkerNew os p c w).1 with
    | .worker _ _ _ => winWorkerErr codes os p c w = none ∧
        ∃ round, ∀ n e, ¬ WinCause codes os c w (lineText codes c) round n e
    | .error known => ∃ e round, winWorkerErr codes os p c w = some e ∧ (∀ e', known = some e' → e = e') ∧
        FirstWinCause (fun codes os => winWorkerErr codes os p c w) codes os c w (lineText codes c) round e
    | _ => False := by
  obtain ⟨x, y, fh⟩ := fourHandles hc hp
  rw [winWorkerNew, winWorkerErr, hc]
  simp only [launchWith, launchWithErr]
  cases hi : os.setInheritable with
  | false =>
    simp only [Bool.false_eq_true, if_false]
    refine ⟨_, 0, rfl, by simp, 1, .inherit hi, ?_, by omega⟩
    intro m hm e h
    cases h <;> omega
  | true =>
    simp only [if_true]
    have hprep := fun round => winPrepare_cause codes os p c w (lineText codes c) round pw b x y a fh.handles fh.freeB fh.freeA
      hi hopen
    cases hpr : winPrepare { w with pw := pw, inheritable := b :: w.inheritable } p c b with
    | error e =>
      simp only []
      have := hprep 0
      rw [hpr] at this
      obtain ⟨n, hn, h1, h2⟩ := this
      exact ⟨e, 0, rfl, by simp, n, h1, h2, by omega⟩
    | ok pc =>
      obtain ⟨p', c'⟩ := pc
      simp only []
      have hpre : c'.exe = c.exe ∧ c'.argv = c.argv ∧ ∀ round n, n < 6 → ∀ e,
          ¬ WinCause codes os c w (lineText codes c) round n e := by
        refine ⟨?_, ?_, fun round => ?_⟩
        · have := hprep 0; rw [hpr] at this; exact this.1
        · have := hprep 0; rw [hpr] at this; exact this.2.1
        · have := hprep round; rw [hpr] at this; exact this.2.2
      obtain ⟨hexe, hargv, h5⟩ := hpre
      have hline : winCommandLine c'.exe c'.argv = winCommandLine c.exe c.argv := by rw [hexe, hargv]
      generalize hw1 : ({ w with pw := pw, inheritable := b :: w.inheritable } : WinWorld) = w1
      have hf1 : w1.pw.handles.free os.hProcess = true := by rw [← hw1]; exact hp
      have hs1 : w1.start = w.start := by rw [← hw1]
      cases hcl : winCommandLine c.exe c.argv with
      | none =>
        have hnil : c.argv = [] := by
          cases hx : c.argv with
          | nil => rfl
          | cons x l => rw [hx] at hcl; cases hcl
        rw [hcl] at hline
        simp only [winNewProcess, winNewProcessErr, hline]
        exact ⟨_, 0, rfl, fun _ h => Option.some.inj h, 6, .arguments hnil, h5 0, by omega⟩
      | some cmdline =>
        have h6 : ∀ round n, n < 7 → ∀ e, ¬ WinCause codes os c w (lineText codes c) round n e := by
          intro round m hm e h
          rcases Nat.lt_or_ge m 6 with hm' | hm'
          · exact h5 round m hm' e h
          · cases h with
            | arguments h => rw [h] at hcl; cases hcl
            | _ => omega
        have htext : lineText codes c = (fromUtf8 cmdline).getD (codes.replace cmdline) := by rw [lineText, hcl]
        rw [hcl] at hline
        cases hd : os.windowsDirectory with
        | false =>
          simp only [winNewProcess, winNewProcessErr, hline, hd, Bool.false_and, Bool.false_eq_true, if_false]
          exact ⟨_, 0, rfl, by simp, 7, .directory hd, h6 0, by omega⟩
        | true =>
          have h7 : ∀ round n, n < 8 → ∀ e, ¬ WinCause codes os c w (lineText codes c) round n e := by
            intro round m hm e h
            rcases Nat.lt_or_ge m 7 with hm' | hm'
            · exact h6 round m hm' e h
            · cases h with
              | directory h => rw [h] at hd; cases hd
              | _ => omega
          have hloop := winLoopErr_agrees codes cmdline os.supported (p'.inheritedHandles.map (BitVec.ofNat 64)) os.rounds 6 0
            ⟨true, true, true, true, true⟩ w.start
          have hcreate : winCreate os.supported (p'.inheritedHandles.map (BitVec.ofNat 64)) os.rounds 6 w1.start =
            winLoop os.supported (p'.inheritedHandles.map (BitVec.ofNat 64)) os.rounds 6 0 ⟨true, true, true, true, true⟩
              w.start := by rw [winCreate, hs1]
          simp only [winNewProcess, winNewProcessErr, hline, hd, hf1, Bool.and_self, if_true, hs1]
          rw [hs1] at hcreate
          rw [hcreate]
          cases hl : winLoop os.supported (p'.inheritedHandles.map (BitVec.ofNat 64)) os.rounds 6 0
              ⟨true, true, true, true, true⟩ w.start with
          | again f s =>
            exact absurd hl ((C62_ends os.supported (p'.inheritedHandles.map (BitVec.ofNat 64)) os.rounds w.start 6
              (Nat.le_refl _)).1 f s)
          | failed s =>
            rw [hl] at hloop
            obtain ⟨j, x, hx, -, hfail, hmade, hlater⟩ := hloop
            simp only [hx, Option.map_some]
            have hall : ∀ codes' rounds' y, winLoopErr codes' cmdline os.supported (p'.inheritedHandles.map (BitVec.ofNat 64))
                rounds' 6 0 ⟨true, true, true, true, true⟩ w.start = some y →
                winWorkerErr codes' { os with rounds := rounds' } p c w = some (OsFailure.error y) := by
              intro codes' rounds' y hy
              have hagree := winLoopErr_agrees codes' cmdline os.supported (p'.inheritedHandles.map (BitVec.ofNat 64)) rounds' 6 0
                ⟨true, true, true, true, true⟩ w.start
              have hfails : ∃ s', winLoop os.supported (p'.inheritedHandles.map (BitVec.ofNat 64)) rounds' 6 0
                  ⟨true, true, true, true, true⟩ w.start = .failed s' := by
                cases hl' : winLoop os.supported (p'.inheritedHandles.map (BitVec.ofNat 64)) rounds' 6 0
                    ⟨true, true, true, true, true⟩ w.start with
                | again _ _ => rw [hl', hy] at hagree; cases hagree
                | created _ _ => rw [hl', hy] at hagree; cases hagree.1
                | failed s' => exact ⟨s', rfl⟩
              obtain ⟨s', hfails⟩ := hfails
              rw [winWorkerErr]
              have hpr' : winPrepare w1 p c b = .ok (p', c') := by rw [← hw1]; exact hpr
              simp only [hc, launchWithErr, hi, if_true, hw1, hpr']
              simp only [winNewProcess, winNewProcessErr, hline, hd, hf1, Bool.and_self, if_true, hs1, winCreate, hfails, hy,
                Option.map_some]
            have hlast : LastAttempt (fun codes os => winWorkerErr codes os p c w) codes os j (OsFailure.error x) :=
              ⟨fun codes' rounds' hr hn => hall codes' rounds' _ (hmade codes' rounds' hr hn),
                fun rounds' hr => hall codes rounds' _ (hlater rounds' hr)⟩
            refine ⟨_, j, rfl, by simp, ?_⟩
            rcases hfail with ⟨g1, rfl⟩ | ⟨g1, g2, rfl⟩ | ⟨g1, g2, g3, rfl⟩
            · exact ⟨8, .list g1, h7 j, fun _ => hlast⟩
            · refine ⟨9, ?_, fun m hm e h => ?_, fun _ => hlast⟩
              · rw [htext]; exact .create g2
              · rcases Nat.lt_or_ge m 8 with hm' | hm'
                · exact h7 j m hm' e h
                · cases h with
                  | list h => rw [g1] at h; cases h
                  | _ => omega
            · refine ⟨10, .number g3, fun m hm e h => ?_, fun _ => hlast⟩
              rcases Nat.lt_or_ge m 8 with hm' | hm'
              · exact h7 j m hm' e h
              · cases h with
                | list h => rw [g1] at h; cases h
                | create h => rw [g2] at h; cases h
                | _ => omega
          | created q s =>
            rw [hl] at hloop
            obtain ⟨-, j, g1, g2, g3⟩ := hloop
            have h10 : ∀ m, m < 11 → ∀ e, ¬ WinCause codes os c w (lineText codes c) j m e := by
              intro m hm e h
              rcases Nat.lt_or_ge m 8 with hm' | hm'
              · exact h7 j m hm' e h
              · cases h with
                | list h => rw [g1] at h; cases h
                | create h => rw [g2] at h; cases h
                | number h => exact g3 h
                | _ => omega
            have hn : winNewProcess os p' c' w1 = (.ok q, w1.spawned os c' cmdline s) := by
              rw [winNewProcess, hline]
              simp only [hd, hf1, Bool.and_self, if_true, hs1, hcreate, hl]
            obtain ⟨cmd2, call, s2, k1, k2, k3, k4, k5⟩ := winNewProcess_ok hn
            have hget : (w1.spawned os c' cmdline s).pw.handles.get os.hProcess = some w1.pw.next := by
              rw [k5]; exact HTable.get_cons _ _ _
            have hhan : (w1.spawned os c' cmdline s).pw.handles = (os.hProcess, w1.pw.next) :: pw.handles := by
              rw [k5, ← hw1]; rfl
            simp only []
            cases hop : os.opened with
            | none =>
              simp only [WinWorld.openProcess, hop]
              exact ⟨_, j, rfl, by simp, 11, .accept hop, h10, by omega⟩
            | some h =>
              obtain ⟨q1, q2⟩ := ho h hop
              have hfr : (w1.spawned os c' cmdline s).pw.handles.free h = true := by
                rw [hhan, HTable.free_iff, HTable.get_cons_ne _ _ (Ne.symm q2)]
                exact (HTable.free_iff _ _).1 q1
              simp only [WinWorld.openProcess, hop, hget, hfr, if_true]
              have h11 : ∀ m, m < 12 → ∀ e, ¬ WinCause codes os c w (lineText codes c) j m e := by
                intro m hm e h
                rcases Nat.lt_or_ge m 11 with hm' | hm'
                · exact h10 m hm' e h
                · cases h with
                  | accept h => rw [h] at hop; cases hop
                  | _ => omega
              cases hsp : os.spawn with
              | false =>
                simp only [Bool.false_eq_true, if_false]
                exact ⟨_, j, rfl, by simp, 12, .thread hsp, h11, by omega⟩
              | true =>
                simp only [if_true]
                refine ⟨trivial, j, fun m e h => ?_⟩
                rcases Nat.lt_or_ge m 12 with hm' | hm'
                · exact h11 m hm' e h
                · cases h with
                  | thread h => rw [h] at hsp; cases hsp
                  | _ => omega

/-- The case of an error. -/
theorem first_cause_error {codes : LaunchCodes} {os : LaunchOs} {p : Policy} {c : ProcessConfig} {w w' : WinWorld} {pw : PipeWorld}
    {a b : BitVec 64} {known : Option BrokerError}
    (hc : channelNew os.pid os.pipes os.tries 0 0 w.pw = some (.channel a b, pw))
    (hopen : ∀ raw ∈ streams c, w.pw.handles.get (BitVec.ofNat 64 raw) ≠ none)
    (hp : pw.handles.free os.hProcess = true)
    (ho : ∀ h, os.opened = some h → pw.handles.free h = true ∧ h ≠ os.hProcess)
    (hw : winWorkerNew os p c w = (.error known, w')) :
    ∃ e round, winWorkerErr codes os p c w = some e ∧ FirstWinCause (fun codes os => winWorkerErr codes os p c w) codes os c w (lineText codes c) round e := by
  have h := C130_first_cause codes os p c w pw a b hc hopen hp ho
  rw [hw] at h
  obtain ⟨e, round, h1, -, h2⟩ := h
  exact ⟨e, round, h1, h2⟩

/-- `launchOs` (Props/WinLaunch.lean) with codes for what fails. -/
def launchCodes : LaunchCodes := ⟨6, 203, fun k => BitVec.ofNat 32 (100 + k), fun k => BitVec.ofNat 32 (200 + k), fun _ => 6, 87,
  c!"out of memory", fun _ => []⟩

/-- The hypotheses of `C130_first_cause` are met, for a creation that succeeds and for one that fails: the system has no
attribute lists in the second attempt, after it refused the mitigations in the first one. -/
example : (∃ pw, channelNew launchOs.pid launchOs.pipes launchOs.tries 0 0 launchWorld.pw = some (.channel 4 8, pw) ∧
      pw.handles.free launchOs.hProcess = true ∧
      ∀ h, launchOs.opened = some h → pw.handles.free h = true ∧ h ≠ launchOs.hProcess) ∧
    (∀ raw ∈ streams launchConfig, launchWorld.pw.handles.get (BitVec.ofNat 64 raw) ≠ none) ∧
    winWorkerErr launchCodes launchOs Policy.nothingAllowed launchConfig launchWorld = none ∧
    winWorkerErr launchCodes
        { launchOs with rounds := fun k => { winGoodRound with createOk := false, listOk := k == 0 } }
        Policy.nothingAllowed launchConfig launchWorld =
      some (.internalOsOperationFailed c!"InitializeProcThreadAttributeList()" 101) := by
  refine ⟨⟨⟨[⟨firstName, 2, some 3⟩, ⟨utf8 c!"x", 4, none⟩], 5, [(8, 3), (4, 2), (12, 1), (16, 0)]⟩, by decide +kernel,
    by decide +kernel, ?_⟩, ?_, by decide +kernel, by decide +kernel⟩
  · intro h hh
    cases hh
    exact ⟨by decide +kernel, by decide⟩
  · intro raw hr
    have : raw = 16 := by simpa [streams, launchConfig, ProcessConfig.new] using hr
    subst this
    decide +kernel

/-- No process can be created, with mitigations or without: the code is that of the last attempt. -/
example : winWorkerErr launchCodes { launchOs with rounds := fun _ => { winGoodRound with createOk := false } }
    Policy.nothingAllowed launchConfig launchWorld =
    some (.internalOsOperationFailed (c!"CreateProcess(" ++ lineText launchCodes launchConfig ++ c!") failed") 201) := by
  decide +kernel

/-- `launchOs`, where the new process cannot be opened. -/
def noOpenOs : LaunchOs := { launchOs with opened := none }

theorem noOpen_channel : channelNew noOpenOs.pid noOpenOs.pipes noOpenOs.tries 0 0 launchWorld.pw =
    some (.channel 4 8, ⟨[⟨firstName, 2, some 3⟩, ⟨utf8 c!"x", 4, none⟩], 5, [(8, 3), (4, 2), (12, 1), (16, 0)]⟩) := by
  decide +kernel

/-- The property does not hold in full: if the new process cannot be opened, the caller is told neither which call failed nor
the code of the system, whatever that is. -/
theorem C130_open_process_violated (codes : LaunchCodes) (hc : codes.openProcess ≠ 0) :
    ∃ e, winWorkerErr codes noOpenOs Policy.nothingAllowed launchConfig launchWorld = some e ∧
      (∀ call, ¬ TellsCall call codes.openProcess e) ∧ ¬ TellsCall c!"OpenProcess" codes.openProcess e := by
  have hopen : ∀ raw ∈ streams launchConfig, launchWorld.pw.handles.get (BitVec.ofNat 64 raw) ≠ none := by
    intro raw hr
    have : raw = 16 := by simpa [streams, launchConfig, ProcessConfig.new] using hr
    subst this
    decide +kernel
  have hw : ∃ w', winWorkerNew noOpenOs Policy.nothingAllowed launchConfig launchWorld = (.error none, w') :=
    ⟨_, C103_process_left_violated.1.choose_spec.1⟩
  obtain ⟨w', hw⟩ := hw
  obtain ⟨e, round, he, n, hcause, -⟩ := first_cause_error (codes := codes) noOpen_channel hopen (by decide +kernel)
    (by intro h hh; cases hh) hw
  have hen : e = .internalOsOperationFailed c!"unknown OS operation failed, IPC channel does not accept worker PID" 0 := by
    cases hcause with
    | accept h => rfl
    | inherit h => cases h
    | stdin h hn => cases h; exact absurd (by decide) hn
    | stdout h hn => cases h
    | stderr h hn => cases h
    | environment h hn =>
      have ha := h
      simp only [launchConfig, List.mem_cons, List.not_mem_nil, or_false] at ha
      subst ha
      rw [← nameFromEnv_spec] at hn
      exact absurd hn (by decide +kernel)
    | arguments h => cases h
    | directory h => cases h
    | list h => cases h
    | create h => cases h
    | number h =>
      change winGoodRound.pid = 0#32 at h
      exact absurd h (by decide)
    | thread h => cases h
  subst hen
  have hno : ∀ call, ¬ TellsCall call codes.openProcess (.internalOsOperationFailed
      c!"unknown OS operation failed, IPC channel does not accept worker PID" 0) := by
    rintro call ⟨-, h⟩
    exact hc (BitVec.eq_of_toNat_eq h.symm)
  exact ⟨_, he, hno, hno _⟩

/-- Every other failed call of the system but the one for a thread is told: its name and its code. -/
theorem C130_told (codes : LaunchCodes) (os : LaunchOs) (c : ProcessConfig) (w : WinWorld) (line : Str) (round n : Nat)
    (e : BrokerError) (h : WinCause codes os c w line round n e) :
    (n = 1 → TellsCall c!"SetHandleInformation()" codes.setInheritable e) ∧
    (n = 7 → TellsCall c!"GetSystemDirectory()" codes.windowsDirectory e) ∧
    (n = 8 → TellsCall c!"InitializeProcThreadAttributeList()" (codes.list round) e) ∧
    (n = 9 → TellsCall (c!"CreateProcess(" ++ line) (codes.create round) e) ∧
    (n = 10 → TellsCall c!"GetProcessId()" (codes.getPid round) e) := by
  cases h <;> refine ⟨?_, ?_, ?_, ?_, ?_⟩ <;> intro hn <;> first | omega | skip
  · exact ⟨⟨_, rfl⟩, rfl⟩
  · exact ⟨⟨_, rfl⟩, rfl⟩
  · exact ⟨⟨_, rfl⟩, rfl⟩
  · exact ⟨⟨c!") failed", by simp⟩, rfl⟩
  · exact ⟨⟨_, rfl⟩, rfl⟩

/-- A handle which is not open cannot be inherited: `ERROR_INVALID_HANDLE`. -/
example : winIsInheritable launchWorld 40 = .error (.internalOsOperationFailed c!"GetHandleInformation() failed" 6) ∧
    winIsInheritable launchWorld 16 = .ok true := by decide +kernel

end Iris
