import Verif.Spec.WinLaunch
import Verif.Lemmas.WinPipe
import Verif.Lemmas.WinProcess
import Verif.Lemmas.Process
import Verif.Props.WinPipe
import Verif.Props.WinProcess
/-! Helper lemmas about the creation of Windows workers. -/
namespace Iris
open Spec

attribute [local irreducible] nameOf

/-! ## The calls of `CreateProcess` -/

def AttemptCalls (r : WinRound) (s : WinStart) : WinAttempt → Prop
  | .again _ s' => s'.calls = s.calls ∨ ∃ c, s'.calls = s.calls ++ [c] ∧ c.ok = false
  | .created _ s' => ∃ c, s'.calls = s.calls ++ [c] ∧ c.ok = true
  | .failed s' => s'.calls = s.calls ∨ ∃ c, s'.calls = s.calls ++ [c] ∧ (c.ok = true → r.createOk = true ∧ r.pid = 0)

theorem createProfile_calls {s s' : WinStart} {r : WinRound} {b : Bool} (h : createProfile s r = (b, s')) :
    s'.calls = s.calls := by
  simp only [createProfile] at h
  split at h
  · split at h <;> cases h <;> rfl
  · split at h <;> cases h <;> rfl

theorem winFinish_calls (inherited : List (BitVec 64)) (f : WinFlags) (slots : Nat) (attributes : List ProcAttr)
    (profile : Option Nat) (s : WinStart) (r : WinRound) :
    AttemptCalls r s (winFinish inherited f slots attributes profile s r) := by
  simp only [winFinish]
  split
  · exact .inl rfl
  · split
    · exact .inl rfl
    · split
      · exact .inl rfl
      · split
        · next hc =>
          split
          · next hp => exact .inr ⟨_, rfl, fun _ => ⟨hc, hp⟩⟩
          · exact ⟨_, rfl, hc⟩
        · next hc =>
          have hc : r.createOk = false := by simpa using hc
          split
          · exact .inr ⟨_, rfl, hc⟩
          · exact .inr ⟨_, rfl, fun h => by simp [hc] at h⟩

theorem winAttempt_calls (supported : Bool) (inherited : List (BitVec 64)) (f : WinFlags) (s : WinStart) (r : WinRound) :
    AttemptCalls r s (winAttempt supported inherited f s r) := by
  have key : ∀ {s' : WinStart} {a : WinAttempt}, s'.calls = s.calls → AttemptCalls r s' a → AttemptCalls r s a := by
    intro s' a h ha
    cases a <;> simpa only [AttemptCalls, h] using ha
  simp only [winAttempt]
  generalize (if f.appContainer = true then f else { f with lessPrivileged := false } : WinFlags) = f
  split
  · split
    · split
      · split
        · next h => exact .inl (createProfile_calls h)
        · next h =>
          split
          · exact .inl (createProfile_calls h)
          · split
            · exact .inl (createProfile_calls h)
            · exact key (createProfile_calls h) (winFinish_calls _ _ _ _ _ _ _)
      · exact .inl rfl
    · exact winFinish_calls _ _ _ _ _ _ _
  · exact .inl rfl

/-- All calls of the loop fail, except possibly the last. -/
theorem winLoop_calls (supported : Bool) (inherited : List (BitVec 64)) (rounds : Nat → WinRound) (n k : Nat)
    (f : WinFlags) (s : WinStart) :
    match winLoop supported inherited rounds n k f s with
    | .again _ _ => True
    | .created _ s' => ∃ cs c, s'.calls = s.calls ++ cs ++ [c] ∧ (∀ x ∈ cs, x.ok = false) ∧ c.ok = true
    | .failed s' => (∃ cs, s'.calls = s.calls ++ cs ∧ ∀ x ∈ cs, x.ok = false) ∨
        ∃ cs c, s'.calls = s.calls ++ cs ++ [c] ∧ (∀ x ∈ cs, x.ok = false) ∧ c.ok = true ∧
          ∃ j, (rounds j).createOk = true ∧ (rounds j).pid = 0 := by
  induction n generalizing k f s with
  | zero => trivial
  | succ n ih =>
    rw [winLoop]
    have ha := winAttempt_calls supported inherited f s (rounds k)
    generalize winAttempt supported inherited f s (rounds k) = a at ha
    cases a with
    | again f' s' =>
      simp only
      have ih := ih (k + 1) f' s'
      generalize winLoop supported inherited rounds n (k + 1) f' s' = z at ih
      obtain ⟨d, hd, hd'⟩ : ∃ d, s'.calls = s.calls ++ d ∧ ∀ x ∈ d, x.ok = false := by
        rcases ha with ha | ⟨c, ha, hc⟩
        · exact ⟨[], by simp [ha], by simp⟩
        · exact ⟨[c], ha, by simpa using hc⟩
      have hall : ∀ cs : List CreateProcessCall, (∀ x ∈ cs, x.ok = false) → ∀ x ∈ d ++ cs, x.ok = false := by
        intro cs h x hx
        rcases List.mem_append.1 hx with hx | hx
        · exact hd' x hx
        · exact h x hx
      cases z with
      | again _ _ => trivial
      | created p s2 =>
        obtain ⟨cs, c, h1, h2, h3⟩ := ih
        exact ⟨d ++ cs, c, by rw [h1, hd]; simp, hall cs h2, h3⟩
      | failed s2 =>
        rcases ih with ⟨cs, h1, h2⟩ | ⟨cs, c, h1, h2, h3⟩
        · exact .inl ⟨d ++ cs, by rw [h1, hd]; simp, hall cs h2⟩
        · exact .inr ⟨d ++ cs, c, by rw [h1, hd]; simp, hall cs h2, h3⟩
    | created p s' =>
      obtain ⟨c, h1, h2⟩ := ha
      exact ⟨[], c, by simpa using h1, by simp, h2⟩
    | failed s' =>
      rcases ha with ha | ⟨c, h1, h2⟩
      · exact .inl ⟨[], by simpa using ha, by simp⟩
      · cases hc : c.ok with
        | false => exact .inl ⟨[c], h1, by simpa using hc⟩
        | true => exact .inr ⟨[], c, by simpa using h1, by simp, hc, k, h2 hc⟩

/-! ## The policy and the configuration -/

theorem winAllow_ok {w : WinWorld} {p p' : Policy} {raw : Nat} (h : winAllow w p raw = .ok p') :
    p' = { p with inherit := setInsert p.inherit raw } ∧
    (∃ e ∈ w.pw.handles, e.1 = BitVec.ofNat 64 raw) ∧ BitVec.ofNat 64 raw ∈ w.inheritable := by
  simp only [winAllow, winIsInheritable] at h
  split at h
  · next h' =>
    split at h'
    · simp [Policy.allowInheritHandle] at h'
    · next hs =>
      cases hi : w.inheritable.contains (BitVec.ofNat 64 raw) with
      | false => rw [hi] at h'; simp [Policy.allowInheritHandle] at h'
      | true =>
        rw [hi] at h'
        simp only [Policy.allowInheritHandle, Prod.mk.injEq, true_and] at h'
        cases h
        refine ⟨h'.symm, ?_, by simpa using hi⟩
        simp only [Option.isNone_iff_eq_none] at hs
        obtain ⟨o, ho⟩ := Option.ne_none_iff_exists'.1 hs
        exact ⟨_, HTable.get_mem ho, rfl⟩
  · cases h

theorem winAllowAll_ok {w : WinWorld} {p p' : Policy} {raws : List Nat} (h : winAllowAll w p raws = .ok p') :
    (∀ r, r ∈ p'.inherit ↔ r ∈ p.inherit ∨ r ∈ raws) ∧ { p' with inherit := p.inherit } = p ∧
    ∀ r ∈ raws, (∃ e ∈ w.pw.handles, e.1 = BitVec.ofNat 64 r) ∧ BitVec.ofNat 64 r ∈ w.inheritable := by
  induction raws generalizing p with
  | nil => cases h; exact ⟨by simp, rfl, by simp⟩
  | cons r raws ih =>
    simp only [winAllowAll] at h
    split at h
    · cases h
    · next p1 h1 =>
      obtain ⟨rfl, h2⟩ := winAllow_ok h1
      obtain ⟨i1, i2, i3⟩ := ih h
      refine ⟨fun x => ?_, ?_, ?_⟩
      · rw [i1, mem_setInsert]
        simp only [List.mem_cons, or_assoc]
      · have := congrArg (fun q : Policy => { q with inherit := p.inherit }) i2
        exact this
      · intro x hx
        rcases List.mem_cons.1 hx with rfl | hx
        · exact h2
        · exact i3 x hx

theorem winPrepare_ok {w : WinWorld} {p p' : Policy} {c c' : ProcessConfig} {b : BitVec 64}
    (h : winPrepare w p c b = .ok (p', c')) :
    c' = { c with envp := c.envp ++ [ipcHandleVar b.toNat] } ∧ (∀ e ∈ c.envp, nameFromEnv e ≠ ipcName) ∧
    (∀ r, r ∈ p'.inherit ↔ r ∈ p.inherit ∨ r = b.toNat ∨ r ∈ streams c) ∧ { p' with inherit := p.inherit } = p ∧
    b ∈ w.inheritable ∧ ∀ r ∈ streams c, (∃ e ∈ w.pw.handles, e.1 = BitVec.ofNat 64 r) ∧ BitVec.ofNat 64 r ∈ w.inheritable := by
  simp only [winPrepare] at h
  split at h
  · cases h
  · next p1 h1 =>
    split at h
    · cases h
    · next p2 h2 =>
      split at h
      · cases h
      · next c2 h3 =>
        cases h
        obtain ⟨rfl, -, i⟩ := winAllow_ok h1
        obtain ⟨a1, a2, a3⟩ := winAllowAll_ok h2
        obtain ⟨e2, e1⟩ := setEnv_ok h3
        refine ⟨e1, fun e he => ?_, fun r => ?_, ?_, by simpa using i, a3⟩
        · have := e2 e he
          rwa [nameFromEnv_ipc] at this
        · rw [a1, mem_setInsert]
          simp only [streams, or_assoc]
        · exact congrArg (fun q : Policy => { q with inherit := p.inherit }) a2

/-! ## The process -/

theorem calls_last {l : List CreateProcessCall} {cs : List CreateProcessCall} {c : CreateProcessCall} :
    ((l ++ cs ++ [c]).drop l.length).getLast? = some c := by
  rw [List.append_assoc, List.drop_left]; simp

/-- The new process. -/
def childOf (os : LaunchOs) (c : ProcessConfig) (cmdline : Bytes) (w : WinWorld) (attributes : List ProcAttr) : WinChild :=
  ⟨w.pw.next, childHandles w attributes, envBlock (mergeEnv os.sys c.envp), cmdline,
    [c.stdin, c.stdout, c.stderr].map fun h => (h.map (BitVec.ofNat 64)).getD INVALID_HANDLE_VALUE, attributes⟩

/-- The state after its creation. -/
def withChild (os : LaunchOs) (c : ProcessConfig) (cmdline : Bytes) (w : WinWorld) (attributes : List ProcAttr)
    (s : WinStart) : WinWorld :=
  ⟨⟨w.pw.pipes, w.pw.next + 1, (os.hProcess, w.pw.next) :: w.pw.handles⟩, w.inheritable, s,
    w.children ++ [childOf os c cmdline w attributes]⟩

theorem spawned_ok {os : LaunchOs} {c : ProcessConfig} {cmdline : Bytes} {w : WinWorld} {s : WinStart}
    {cs : List CreateProcessCall} {call : CreateProcessCall} (h : s.calls = w.start.calls ++ cs ++ [call])
    (ho : call.ok = true) : w.spawned os c cmdline s = withChild os c cmdline w call.attributes s := by
  have : (s.calls.drop w.start.calls.length).getLast? = some call := by rw [h, calls_last]
  obtain ⟨slots, attributes, ok⟩ := call
  cases ho
  simp only [WinWorld.spawned, this]
  rfl

theorem spawned_not {os : LaunchOs} {c : ProcessConfig} {cmdline : Bytes} {w : WinWorld} {s : WinStart}
    {cs : List CreateProcessCall} (h : s.calls = w.start.calls ++ cs) (ho : ∀ x ∈ cs, x.ok = false) :
    w.spawned os c cmdline s = { w with start := s } := by
  have : s.calls.drop w.start.calls.length = cs := by rw [h, List.drop_left]
  simp only [WinWorld.spawned, this]
  split
  · next attributes h =>
    have := ho _ (List.mem_of_getLast? h)
    cases this
  · rfl

theorem winNewProcess_ok {os : LaunchOs} {p : Policy} {c : ProcessConfig} {w w' : WinWorld} {q : WinProcess}
    (h : winNewProcess os p c w = (.ok q, w')) :
    ∃ cmdline call s, winCommandLine c.exe c.argv = some cmdline ∧ w.pw.handles.free os.hProcess = true ∧
      winCreate os.supported (p.inherit.map (BitVec.ofNat 64)) os.rounds 6 w.start = .created q s ∧
      s.calls.getLast? = some call ∧ w' = withChild os c cmdline w call.attributes s := by
  simp only [winNewProcess, Policy.inheritedHandles] at h
  split at h
  · cases h
  · next cmdline hcmd =>
    split at h
    · next hf =>
      simp only [Bool.and_eq_true] at hf
      have hl := winLoop_calls os.supported (p.inherit.map (BitVec.ofNat 64)) os.rounds 6 0 ⟨true, true, true, true, true⟩ w.start
      split at h
      · cases h
      · cases h
      · next q' s hc =>
        cases h
        rw [winCreate] at hc
        rw [hc] at hl
        obtain ⟨cs, call, h1, -, h3⟩ := hl
        exact ⟨cmdline, call, s, hcmd, hf.2, hc, by rw [h1]; simp, spawned_ok h1 h3⟩
    · cases h

theorem winNewProcess_error {os : LaunchOs} {p : Policy} {c : ProcessConfig} {w w' : WinWorld} {e : Option BrokerError}
    (h : winNewProcess os p c w = (.error e, w')) :
    (∃ s, w' = { w with start := s } ∧ (e ≠ none → s = w.start)) ∨
    e = none ∧ (∃ k, (os.rounds k).createOk = true ∧ (os.rounds k).pid = 0) ∧ w.pw.handles.free os.hProcess = true ∧
      ∃ cmdline a s, w' = withChild os c cmdline w a s := by
  simp only [winNewProcess, Policy.inheritedHandles] at h
  split at h
  · cases h; exact .inl ⟨w.start, rfl, fun _ => rfl⟩
  · next cmdline hcmd =>
    split at h
    · next hf =>
      simp only [Bool.and_eq_true] at hf
      have hl := winLoop_calls os.supported (p.inherit.map (BitVec.ofNat 64)) os.rounds 6 0 ⟨true, true, true, true, true⟩ w.start
      split at h
      · cases h; exact .inl ⟨_, rfl, fun h => absurd rfl h⟩
      · next s hc =>
        cases h
        rw [winCreate] at hc
        rw [hc] at hl
        rcases hl with ⟨cs, h1, h2⟩ | ⟨cs, call, h1, -, h3, h4⟩
        · exact .inl ⟨s, spawned_not h1 h2, fun h => absurd rfl h⟩
        · exact .inr ⟨rfl, h4, hf.2, cmdline, call.attributes, s, spawned_ok h1 h3⟩
      · cases h
    · cases h; exact .inl ⟨w.start, rfl, fun _ => rfl⟩


/-! ## The whole -/

theorem HTable.free_cons {t : HTable} {h k : BitVec 64} {o : Nat} (hf : HTable.free ((k, o) :: t) h = true) :
    h ≠ k ∧ t.free h = true := by
  obtain ⟨h0, hn⟩ := (HTable.free_iff _ _).1 hf
  have hne : k ≠ h := by
    rintro rfl
    rw [HTable.get_cons] at hn; cases hn
  rw [HTable.get_cons_ne _ _ hne] at hn
  exact ⟨Ne.symm hne, (HTable.free_iff _ _).2 ⟨h0, hn⟩⟩

theorem HTable.free_not_mem {t : HTable} {h : BitVec 64} (hf : t.free h = true) : ∀ e ∈ t, e.1 ≠ h :=
  HTable.get_none ((HTable.free_iff _ _).1 hf).2

theorem HTable.close_cons_ne {t : HTable} {h k : BitVec 64} {o : Nat} (hn : k ≠ h) :
    HTable.close ((k, o) :: t) h = (k, o) :: t.close h := by
  simp [HTable.close, hn]

theorem HTable.close_cons_eq {t : HTable} {h : BitVec 64} {o : Nat} (hf : t.free h = true) :
    HTable.close ((h, o) :: t) h = t :=
  HTable.close_cons ((HTable.free_iff _ _).1 hf).2

theorem HTable.close_not {t : HTable} {h : BitVec 64} (hf : t.free h = true) : t.close h = t :=
  HTable.close_free ((HTable.free_iff _ _).1 hf).2

/-- The state with a channel whose worker end is inheritable. -/
def withChannel (w : WinWorld) (pw : PipeWorld) (b : BitVec 64) : WinWorld :=
  ⟨pw, b :: w.inheritable, w.start, w.children⟩

/-- The four new handles of a worker's creation: the numbers of the objects, and that they are new. -/
structure FourHandles (t : HTable) (next : Nat) (a b hP : BitVec 64) (x y : Nat) (pw : PipeWorld) : Prop where
  handles : pw.handles = (b, y) :: (a, x) :: t
  freeA : t.free a = true
  freeB : t.free b = true
  ne : a ≠ b
  leX : next ≤ x
  ltY : x < y
  ltN : y < pw.next
  freeP : t.free hP = true
  neA : hP ≠ a
  neB : hP ≠ b

theorem fourHandles {w : WinWorld} {os : LaunchOs} {pw : PipeWorld} {a b : BitVec 64}
    (hc : channelNew os.pid os.pipes os.tries 0 0 w.pw = some (.channel a b, pw))
    (hf : pw.handles.free os.hProcess = true) :
    ∃ x y, FourHandles w.pw.handles w.pw.next a b os.hProcess x y pw := by
  obtain ⟨h1, h2, h3, x, y, h4, h5, h6, h7⟩ := C100_handles _ _ _ _ _ _ _ _ _ hc
  rw [h4] at hf
  obtain ⟨f1, hf⟩ := HTable.free_cons hf
  obtain ⟨f2, hf⟩ := HTable.free_cons hf
  exact ⟨x, y, h4, h1, h2, h3, h5, h6, h7, hf, f2, f1⟩

theorem launch_worker {os : LaunchOs} {p : Policy} {c : ProcessConfig} {w w' : WinWorld} {q : WinProcess}
    {a h : BitVec 64} (hl : winWorkerNew os p c w = (.worker q a h, w')) :
    ∃ (pw : PipeWorld) (b : BitVec 64) (p' : Policy) (c' : ProcessConfig) (cmdline : Bytes) (call : CreateProcessCall)
      (s : WinStart) (x y : Nat),
      channelNew os.pid os.pipes os.tries 0 0 w.pw = some (.channel a b, pw) ∧
      winPrepare (withChannel w pw b) p c b = .ok (p', c') ∧
      winCommandLine c'.exe c'.argv = some cmdline ∧
      winCreate os.supported (p'.inherit.map (BitVec.ofNat 64)) os.rounds 6 w.start = .created q s ∧
      s.calls.getLast? = some call ∧
      FourHandles w.pw.handles w.pw.next a b os.hProcess x y pw ∧
      w.pw.handles.free h = true ∧ h ≠ os.hProcess ∧ h ≠ a ∧ h ≠ b ∧
      w'.pw.handles = (h, pw.next) :: (os.hProcess, pw.next) :: (a, x) :: w.pw.handles ∧
      w'.pw.pipes = pw.pipes.filter (fun i => some y ≠ some i.server) ∧
      w'.inheritable = (b :: w.inheritable).filter (· ≠ b) ∧ w'.start = s ∧
      w'.children = w.children ++ [childOf os c' cmdline (withChannel w pw b) call.attributes] := by
  simp only [winWorkerNew] at hl
  split at hl
  · cases hl
  · cases hl
  · cases hl
  · cases hl
  · next a' b pw hc =>
    simp only [launchWith] at hl
    split at hl
    · split at hl
      · cases hl
      · next p' c' hp =>
        split at hl
        · cases hl
        · next q' w2 hn =>
          split at hl
          · cases hl
          · next h' w3 ho =>
            split at hl
            · cases hl
              change winNewProcess os p' c' (withChannel w pw b) = _ at hn
              obtain ⟨cmdline, call, s, n1, n2, n3, n4, rfl⟩ := winNewProcess_ok hn
              obtain ⟨x, y, fh⟩ := fourHandles hc n2
              simp only [WinWorld.openProcess] at ho
              split at ho
              · next h'' o ho1 ho2 =>
                split at ho
                · next hf =>
                  cases ho
                  have ho3 : o = pw.next := by
                    have := ho2.symm.trans (HTable.get_cons _ _ _)
                    cases this; rfl
                  subst ho3
                  simp only [withChild, withChannel, fh.handles] at hf
                  obtain ⟨g1, hf⟩ := HTable.free_cons hf
                  obtain ⟨g2, hf⟩ := HTable.free_cons hf
                  obtain ⟨g3, hf⟩ := HTable.free_cons hf
                  have hget : HTable.get ((h, pw.next) :: (os.hProcess, pw.next) :: (b, y) :: (a, x) :: w.pw.handles) b =
                      some y := by
                    rw [HTable.get_cons_ne _ _ g2, HTable.get_cons_ne _ _ fh.neB, HTable.get_cons]
                  refine ⟨pw, b, p', c', cmdline, call, s, x, y, hc, hp, n1, n3, n4, fh, hf, g1, g3, g2, ?_, ?_, rfl, rfl, rfl⟩
                  · simp only [WinWorld.close, PipeWorld.close, withChild, withChannel, fh.handles]
                    rw [HTable.close_cons_ne g2, HTable.close_cons_ne fh.neB, HTable.close_cons_eq]
                    rw [HTable.free_iff, HTable.get_cons_ne _ _ fh.ne]
                    exact (HTable.free_iff _ _).1 fh.freeB
                  · simp only [WinWorld.close, PipeWorld.close, withChild, withChannel, fh.handles, hget]
                · cases ho
              · cases ho
            · cases hl
    · cases hl

/-! ## Failures -/

theorem close_both {t : HTable} {a b : BitVec 64} {x y : Nat} (ha : t.free a = true) (hb : t.free b = true) (hn : a ≠ b) :
    HTable.close (HTable.close ((b, y) :: (a, x) :: t) b) a = t := by
  rw [HTable.close_cons_eq, HTable.close_cons_eq ha]
  rw [HTable.free_iff, HTable.get_cons_ne _ _ hn]
  exact (HTable.free_iff _ _).1 hb

theorem filter_new {l : List (BitVec 64)} {b : BitVec 64} (h : b ∉ l) : (b :: l).filter (· ≠ b) = l := by
  simp only [ne_eq, decide_not, List.filter_cons, decide_true, Bool.not_true, Bool.false_eq_true, if_false]
  rw [List.filter_eq_self]
  intro x hx
  simp only [Bool.not_eq_true', decide_eq_false_iff_not]
  rintro rfl; exact h hx

theorem filter_old {l : List (BitVec 64)} {b : BitVec 64} (h : b ∉ l) : l.filter (· ≠ b) = l := by
  rw [List.filter_eq_self]
  intro x hx
  simp only [ne_eq, decide_not, Bool.not_eq_true', decide_eq_false_iff_not]
  rintro rfl; exact h hx

theorem not_inheritable {w : WinWorld} (hw : WorldOk w) {h : BitVec 64} (hf : w.pw.handles.free h = true) :
    h ∉ w.inheritable := by
  intro hm
  obtain ⟨e, he, rfl⟩ := hw.inheritable h hm
  exact HTable.free_not_mem hf e he rfl

/-- What is left after a failure. -/
theorem launch_error {os : LaunchOs} {p : Policy} {c : ProcessConfig} {w w' : WinWorld} {e : Option BrokerError}
    (hw : WorldOk w) (hl : winWorkerNew os p c w = (.error e, w')) :
    w'.inheritable = w.inheritable ∧
    (w'.pw.handles = w.pw.handles ∨ (∃ o, w'.pw.handles = (os.hProcess, o) :: w.pw.handles) ∧
      (∃ k, (os.rounds k).createOk = true ∧ (os.rounds k).pid = 0)) ∧
    (e ≠ none → w'.pw.handles = w.pw.handles ∧ w'.start = w.start ∧ w'.children = w.children) := by
  simp only [winWorkerNew] at hl
  split at hl
  · cases hl
  · cases hl
  · cases hl
  · next pw hc =>
    cases hl
    have := C100_nothing_left _ _ _ _ _ _ _ _ hc (.inr ⟨_, rfl⟩)
    exact ⟨rfl, .inl this, fun h => absurd rfl h⟩
  · next a b pw hc =>
    obtain ⟨fa, fb, ne, x, y, hh, -⟩ := C100_handles _ _ _ _ _ _ _ _ _ hc
    have ia := not_inheritable hw fa
    have ib := not_inheritable hw fb
    have plain : ∀ (s : WinStart), let v := ((({ withChannel w pw b with start := s } : WinWorld).close b).close a)
        v.pw.handles = w.pw.handles ∧ v.inheritable = w.inheritable ∧ v.start = s ∧ v.children = w.children := by
      intro s
      refine ⟨?_, ?_, rfl, rfl⟩
      · simp only [WinWorld.close, PipeWorld.close, withChannel, hh]
        exact close_both fa fb ne
      · simp only [WinWorld.close, withChannel]
        rw [filter_new ib, filter_old ia]
    simp only [launchWith] at hl
    split at hl
    · split at hl
      · cases hl
        obtain ⟨h1, h2, h3, h4⟩ := plain w.start
        exact ⟨h2, .inl h1, fun _ => ⟨h1, h3, h4⟩⟩
      · next p' c' hp =>
        split at hl
        · next e' w2 hn =>
          cases hl
          change winNewProcess os p' c' (withChannel w pw b) = _ at hn
          rcases winNewProcess_error hn with ⟨s, rfl, hs⟩ | ⟨rfl, hk, hf, cmdline, at_, s, rfl⟩
          · obtain ⟨h1, h2, h3, h4⟩ := plain s
            exact ⟨h2, .inl h1, fun h => ⟨h1, h3.trans (hs h), h4⟩⟩
          · obtain ⟨x', y', fh⟩ := fourHandles hc hf
            refine ⟨(plain s).2.1, .inr ⟨⟨pw.next, ?_⟩, hk⟩, fun h => absurd rfl h⟩
            simp only [WinWorld.close, PipeWorld.close, withChild, withChannel, hh]
            rw [HTable.close_cons_ne fh.neB, HTable.close_cons_ne fh.neA, close_both fa fb ne]
        · next q w2 hn =>
          change winNewProcess os p' c' (withChannel w pw b) = _ at hn
          obtain ⟨cmdline, call, s, n1, n2, n3, n4, rfl⟩ := winNewProcess_ok hn
          obtain ⟨x', y', fh⟩ := fourHandles hc n2
          have iP := not_inheritable hw fh.freeP
          split at hl
          · cases hl
            refine ⟨?_, .inl ?_, fun h => absurd rfl h⟩
            · simp only [WinWorld.close, WinWorld.dropProcess, withChild, withChannel]
              rw [List.filter_cons_of_pos (by simpa using Ne.symm fh.neB), filter_old iP, filter_new ib, filter_old ia]
            · simp only [WinWorld.close, PipeWorld.close, WinWorld.dropProcess, withChild, withChannel, hh]
              rw [HTable.close_cons_eq]
              · exact close_both fa fb ne
              · rw [HTable.free_iff, HTable.get_cons_ne _ _ (Ne.symm fh.neB), HTable.get_cons_ne _ _ (Ne.symm fh.neA)]
                exact (HTable.free_iff _ _).1 fh.freeP
          · next h' w3 ho =>
            split at hl
            · cases hl
            · cases hl
              simp only [WinWorld.openProcess] at ho
              split at ho
              · next h'' o ho1 ho2 =>
                split at ho
                · next hf =>
                  cases ho
                  simp only [withChild, withChannel, hh] at hf
                  obtain ⟨g1, hf⟩ := HTable.free_cons hf
                  obtain ⟨g2, hf⟩ := HTable.free_cons hf
                  obtain ⟨g3, hf⟩ := HTable.free_cons hf
                  have iH := not_inheritable hw hf
                  refine ⟨?_, .inl ?_, fun h => absurd rfl h⟩
                  · simp only [WinWorld.close, WinWorld.dropProcess, withChild, withChannel]
                    rw [filter_new ib, filter_old ia, filter_old iH, filter_old iP]
                  · simp only [WinWorld.close, PipeWorld.close, WinWorld.dropProcess, withChild, withChannel, hh]
                    rw [HTable.close_cons_ne g2, HTable.close_cons_ne fh.neB, HTable.close_cons_ne g3,
                      HTable.close_cons_ne fh.neA, close_both fa fb ne, HTable.close_cons_eq, HTable.close_cons_eq fh.freeP]
                    rw [HTable.free_iff, HTable.get_cons_ne _ _ (Ne.symm g1)]
                    exact (HTable.free_iff _ _).1 hf
                · cases ho
              · cases ho
    · cases hl
      have : ((({ w with pw := pw } : WinWorld).close b).close a).pw.handles = w.pw.handles := by
        simp only [WinWorld.close, PipeWorld.close, hh]
        exact close_both fa fb ne
      refine ⟨?_, .inl this, fun h => absurd rfl h⟩
      simp only [WinWorld.close]
      rw [filter_old ib, filter_old ia]

end Iris
