import Verif.Spec.Creators
import Verif.Lemmas.WorkerNew
import Verif.Lemmas.Concurrent
/-!
# Calls of `Worker::new` do not touch each other's descriptors
-/
namespace Iris
open Spec

/-- A system call changes only descriptors of `o`; `o'` is what belongs to the call afterwards. -/
structure Moves (t : FdTable) (o : List Nat) (t' : FdTable) (o' : List Nat) : Prop where
  keep : ∀ fd, t.get fd ≠ none → fd ∉ o → t'.get fd = t.get fd
  fresh : ∀ fd ∈ o', fd ∈ o ∨ t.get fd = none
  present : ∀ fd ∈ o', t'.get fd ≠ none
  nodup : o'.Nodup
  gain : ∀ fd, t.get fd = none → t'.get fd ≠ none → fd ∈ o'
  wf : t'.WF

/-- What is not in `o'` any more has been closed. -/
def Drops (t' : FdTable) (o o' : List Nat) : Prop := ∀ fd ∈ o, t'.get fd ≠ none → fd ∈ o'

theorem Moves.stay {t : FdTable} {o : List Nat} (hn : o.Nodup) (hp : ∀ fd ∈ o, t.get fd ≠ none) (hw : t.WF) :
    Moves t o t o :=
  ⟨fun _ _ _ => rfl, fun _ h => .inl h, hp, hn, fun _ h h' => absurd h h', hw⟩

theorem Moves.close {t : FdTable} {fd : Nat} {o : List Nat} (hn : (fd :: o).Nodup)
    (hp : ∀ n ∈ fd :: o, t.get n ≠ none) (hw : t.WF) : Moves t (fd :: o) (t.erase fd) o := by
  have hn' := List.nodup_cons.1 hn
  refine ⟨?_, fun _ h => .inl (List.mem_cons_of_mem _ h), ?_, hn'.2, ?_, hw.erase _⟩
  · intro n _ h
    rw [FdTable.get_erase, if_neg]
    rintro rfl
    exact h List.mem_cons_self
  · intro n h
    rw [FdTable.get_erase, if_neg]
    · exact hp n (List.mem_cons_of_mem _ h)
    · rintro rfl
      exact hn'.1 h
  · intro n h h'
    rw [FdTable.get_erase] at h'
    split at h'
    · exact absurd rfl h'
    · exact absurd h h'

theorem Drops.close (t : FdTable) (fd : Nat) (o : List Nat) : Drops (t.erase fd) (fd :: o) o := by
  intro n hn h
  rcases List.mem_cons.1 hn with rfl | hn
  · rw [FdTable.get_erase, if_pos rfl] at h
    exact absurd rfl h
  · exact hn

theorem Drops.self (t : FdTable) (o : List Nat) : Drops t o o := fun _ h _ => h

/-- The table after two descriptors have been allocated. -/
theorem two_get (t : FdTable) (x y : FdEntry) (n : Nat) :
    ((t.alloc x).2.alloc y).2.get n = if n = (t.alloc x).2.lowestFree then some y
      else if n = t.lowestFree then some x else t.get n := by
  rw [FdTable.get_alloc, FdTable.get_alloc]

theorem two_free (t : FdTable) (x : FdEntry) :
    t.get t.lowestFree = none ∧ t.get (t.alloc x).2.lowestFree = none ∧
      (t.alloc x).2.lowestFree ≠ t.lowestFree := by
  have h := (t.alloc x).2.lowestFree_spec.1
  rw [FdTable.get_alloc] at h
  split at h
  · cases h
  · rename_i hne; exact ⟨t.lowestFree_spec.1, h, hne⟩

theorem Moves.two {t : FdTable} {o : List Nat} (x y : FdEntry) (hn : o.Nodup)
    (hp : ∀ fd ∈ o, t.get fd ≠ none) (hw : t.WF) :
    Moves t o ((t.alloc x).2.alloc y).2 ((t.alloc x).2.lowestFree :: t.lowestFree :: o) := by
  obtain ⟨h1, h2, h3⟩ := two_free t x
  refine ⟨?_, ?_, ?_, ?_, ?_, (hw.alloc _).alloc _⟩
  · intro n hn' _
    rw [two_get, if_neg (by rintro rfl; exact hn' h2), if_neg (by rintro rfl; exact hn' h1)]
  · intro n h
    rcases List.mem_cons.1 h with rfl | h
    · exact .inr h2
    rcases List.mem_cons.1 h with rfl | h
    · exact .inr h1
    · exact .inl h
  · intro n h
    rw [two_get]
    split
    · simp
    split
    · simp
    · rename_i ha hb
      rcases List.mem_cons.1 h with rfl | h
      · exact absurd rfl ha
      rcases List.mem_cons.1 h with rfl | h
      · exact absurd rfl hb
      · exact hp n h
  · rw [List.nodup_cons, List.nodup_cons, List.mem_cons]
    refine ⟨?_, ?_, hn⟩
    · rintro (h | h)
      · exact h3 h
      · exact hp _ h h2
    · exact fun h => hp _ h h1
  · intro n h h'
    rw [two_get] at h'
    split at h'
    · rename_i e; rw [e]; exact List.mem_cons_self
    split at h'
    · rename_i e; rw [e]; simp
    · exact absurd h h'

theorem Moves.set {t : FdTable} {o : List Nat} {fd : Nat} (e : FdEntry) (hfd : fd ∈ o) (hn : o.Nodup)
    (hp : ∀ fd ∈ o, t.get fd ≠ none) (hw : t.WF) : Moves t o (t.set fd e) o := by
  refine ⟨?_, fun _ h => .inl h, ?_, hn, ?_, hw.set _ _⟩
  · intro n _ h
    rw [FdTable.get_set, if_neg]
    rintro rfl
    exact h hfd
  · intro n h
    rw [FdTable.get_set]
    split
    · simp
    · exact hp n h
  · intro n h h'
    rw [FdTable.get_set] at h'
    split at h'
    · rename_i e; rw [e]; exact hfd
    · exact absurd h h'

/-! ## What is known at each point of a call -/

/-- The files that come with the first message. -/
def nfiles (os : NewOs) : Nat :=
  match os.first with
  | .datagram d => d.files.length
  | _ => 0

def ChanIs (x : Creation) (t : FdTable) (e : ChanEnds) : Prop :=
  ∃ a b, x.os.socketpair = .ok (a, b) ∧ t.get e.mine = some ⟨a, 0#32⟩ ∧ t.get e.theirs = some ⟨b, 0#32⟩

def MineIs (x : Creation) (t : FdTable) (m : Nat) : Prop :=
  ∃ a b, x.os.socketpair = .ok (a, b) ∧ t.get m = some ⟨a, 0#32⟩

def PolicyFor (x : Creation) (e : ChanEnds) (p : Policy) (left : List Nat) : Prop :=
  ∀ n, (n ∈ p.inherit ∨ n ∈ left) ↔ (n ∈ x.policy.inherit ∨ n = e.theirs ∨ n ∈ streams x.config)

def ConfigFor (x : Creation) (e : ChanEnds) (c : ProcessConfig) : Prop :=
  c = { x.config with envp := x.config.envp ++ [ipcHandleVar e.theirs] }

def PipeIs (x : Creation) (t : FdTable) (q : PipeEnds) (flags : BitVec 32) : Prop :=
  ∃ r, x.os.proc.pipe = .ok (r, q.file) ∧ t.get q.rd = some ⟨r, 0#32⟩ ∧ t.get q.wr = some ⟨q.file, flags⟩

def PidIs (x : Creation) (pid : Nat) : Prop := ∃ ch, x.child = some ch ∧ ch.pid = pid

def PhaseOk (t : FdTable) (x : Creation) : Prop :=
  match x.phase with
  | .begin => True
  | .paired e => ChanIs x t e
  | .marking e f => ChanIs x t e ∧ f = 0#32
  | .checking e p left => ChanIs x t e ∧ PolicyFor x e p left
  | .piping e p c => ChanIs x t e ∧ PolicyFor x e p [] ∧ ConfigFor x e c
  | .piped e p c q => ChanIs x t e ∧ PolicyFor x e p [] ∧ ConfigFor x e c ∧ PipeIs x t q 0#32
  | .sealing e p c q f => ChanIs x t e ∧ PolicyFor x e p [] ∧ ConfigFor x e c ∧ PipeIs x t q 0#32 ∧ f = 0#32
  | .cloning e p c q => ChanIs x t e ∧ PolicyFor x e p [] ∧ ConfigFor x e c ∧ PipeIs x t q FD_CLOEXEC
  | .cloned e _ _ ch => ChanIs x t e ∧ x.child = some ch
  | .reading e _ _ ch => ChanIs x t e ∧ x.child = some ch
  | .read e _ _ r => ChanIs x t e ∧ ∀ pid, r = .ok pid → PidIs x pid
  | .handing e _ pid => ChanIs x t e ∧ PidIs x pid
  | .greeting m _ pid => MineIs x t m ∧ PidIs x pid
  | .greeted m _ pid r => MineIs x t m ∧ PidIs x pid ∧
    ∀ r', r = .ok r' → ∃ fds, r'.cmsgs = rightsCmsg fds ∧ fds.length ≤ nfiles x.os
  | .answering m _ pid => MineIs x t m ∧ PidIs x pid
  | .spawning m _ pid => MineIs x t m ∧ PidIs x pid
  | .failing _ _ => True
  | .failed _ => True
  | .served _ pid => PidIs x pid

/-- What belongs to the call, or to the thread it has created. -/
def CreatePhase.holding : CreatePhase → List Nat
  | .served mine _ => [mine]
  | ph => ph.owned

theorem fail_owned (err : BrokerError) (l : List Nat) : (CreatePhase.fail err l).owned = l := by
  cases l <;> rfl

theorem fail_holding (err : BrokerError) (l : List Nat) : (CreatePhase.fail err l).holding = l := by
  cases l <;> rfl

theorem holding_of_not_over {ph : CreatePhase} (h : ph.over = false) : ph.holding = ph.owned := by
  cases ph <;> first | rfl | cases h

theorem owned_sub_holding (ph : CreatePhase) : ∀ fd ∈ ph.owned, fd ∈ ph.holding := by
  cases ph <;> first | exact fun _ h => h | (intro _ h; cases h)

theorem owned_nodup_of_holding {ph : CreatePhase} (h : ph.holding.Nodup) : ph.owned.Nodup := by
  cases ph <;> first | exact h | exact List.nodup_nil

theorem fail_phaseOk (t : FdTable) (x : Creation) (err : BrokerError) (l : List Nat) :
    PhaseOk t { x with phase := .fail err l } := by
  cases l <;> trivial

theorem ChanIs.congr {x : Creation} {t t' : FdTable} {e : ChanEnds} (h : ChanIs x t e)
    (hm : t'.get e.mine = t.get e.mine) (ht : t'.get e.theirs = t.get e.theirs) : ChanIs x t' e := by
  obtain ⟨a, b, h1, h2, h3⟩ := h
  exact ⟨a, b, h1, hm.trans h2, ht.trans h3⟩

theorem MineIs.congr {x : Creation} {t t' : FdTable} {m : Nat} (h : MineIs x t m)
    (hm : t'.get m = t.get m) : MineIs x t' m := by
  obtain ⟨a, b, h1, h2⟩ := h
  exact ⟨a, b, h1, hm.trans h2⟩

theorem PipeIs.congr {x : Creation} {t t' : FdTable} {q : PipeEnds} {f : BitVec 32} (h : PipeIs x t q f)
    (hm : t'.get q.rd = t.get q.rd) (ht : t'.get q.wr = t.get q.wr) : PipeIs x t' q f := by
  obtain ⟨r, h1, h2, h3⟩ := h
  exact ⟨r, h1, hm.trans h2, ht.trans h3⟩

/-- What is known depends only on the call's own descriptors. -/
theorem PhaseOk.congr {x : Creation} {t t' : FdTable} (h : PhaseOk t x)
    (hk : ∀ fd ∈ x.phase.owned, t'.get fd = t.get fd) : PhaseOk t' x := by
  obtain ⟨c, p, caps, os, ph, chd⟩ := x
  cases ph <;> simp only [PhaseOk, CreatePhase.owned, List.mem_cons, List.not_mem_nil, or_false,
    forall_eq_or_imp, forall_eq] at h hk ⊢
  case paired e => exact h.congr hk.2 hk.1
  case marking e f => exact ⟨h.1.congr hk.2 hk.1, h.2⟩
  case checking e p l => exact ⟨h.1.congr hk.2 hk.1, h.2⟩
  case piping e p c => exact ⟨h.1.congr hk.2 hk.1, h.2⟩
  case piped e p c q =>
    exact ⟨h.1.congr hk.2.2.2 hk.2.2.1, h.2.1, h.2.2.1, h.2.2.2.congr hk.2.1 hk.1⟩
  case sealing e p c q f =>
    exact ⟨h.1.congr hk.2.2.2 hk.2.2.1, h.2.1, h.2.2.1, h.2.2.2.1.congr hk.2.1 hk.1, h.2.2.2.2⟩
  case cloning e p c q =>
    exact ⟨h.1.congr hk.2.2.2 hk.2.2.1, h.2.1, h.2.2.1, h.2.2.2.congr hk.2.1 hk.1⟩
  case cloned e p q ch => exact ⟨h.1.congr hk.2.2.2 hk.2.2.1, h.2⟩
  case reading e p q ch => exact ⟨h.1.congr hk.2.2 hk.2.1, h.2⟩
  case read e p rd r => exact ⟨h.1.congr hk.2.2 hk.2.1, h.2⟩
  case handing e p pid => exact ⟨h.1.congr hk.2 hk.1, h.2⟩
  case greeting m p pid => exact ⟨h.1.congr hk, h.2⟩
  case greeted m p pid r =>
    refine ⟨h.1.congr ?_, h.2⟩
    cases r with
    | error e => exact hk m (by simp)
    | ok r => exact hk m (by simp)
  case answering m p pid => exact ⟨h.1.congr hk, h.2⟩
  case spawning m p pid => exact ⟨h.1.congr hk, h.2⟩
  case served m pid => exact h

/-! ## Each system call -/

/-- What a system call of a call does. -/
structure GoOk (t : FdTable) (x : Creation) (t' : FdTable) (x' : Creation) : Prop where
  moves : Moves t x.phase.owned t' x'.phase.holding
  drops : nfiles x.os ≤ 1 → Drops t' x.phase.owned x'.phase.holding
  ok : PhaseOk t' x'
  config : x'.config = x.config
  policy : x'.policy = x.policy
  os : x'.os = x.os
  caps : x'.caps = x.caps

theorem installAll_gain (fs : List Nat) : ∀ (t : FdTable), t.WF →
    (installAll t fs).1.WF ∧
    ∀ fd, t.get fd = none → (installAll t fs).1.get fd ≠ none → fd ∈ (installAll t fs).2 := by
  induction fs with
  | nil => exact fun t hw => ⟨hw, fun fd h h' => absurd h h'⟩
  | cons f fs ih =>
    intro t hw
    obtain ⟨h1, h2⟩ := ih (t.alloc ⟨f, FD_CLOEXEC⟩).2 (hw.alloc _)
    refine ⟨h1, fun fd h h' => ?_⟩
    simp only [installAll]
    by_cases he : fd = t.lowestFree
    · rw [he]; exact List.mem_cons_self
    · exact List.mem_cons_of_mem _ (h2 fd (by rw [FdTable.get_alloc, if_neg he]; exact h) h')

theorem startRecv_moves (abi : Abi) (t : FdTable) (os : OsChoice) (inc : Incoming) (m : Nat) (hw : t.WF)
    (hm : t.get m ≠ none) :
    (∃ e, startRecv abi t os inc = (t, .error e)) ∨
    ∃ t' r fds, startRecv abi t os inc = (t', .ok r) ∧ r.cmsgs = rightsCmsg fds ∧
      Moves t [m] t' (fds ++ [m]) ∧ t'.get m = t.get m ∧
      fds.length ≤ (match inc with | .datagram d => d.files.length | _ => 0) := by
  cases inc with
  | error e => exact .inl ⟨e, rfl⟩
  | eof =>
    refine .inr ⟨t, _, [], rfl, rfl, ?_, rfl, Nat.zero_le _⟩
    exact Moves.stay (by simp) (by simpa using hm) hw
  | datagram d =>
    obtain ⟨h1, h2, h3, h4⟩ := installAll_spec
      (d.files.take (min os.canInstall (maxFds abi (CMSG_SIZE abi)))) t
    obtain ⟨h5, h6⟩ := installAll_gain
      (d.files.take (min os.canInstall (maxFds abi (CMSG_SIZE abi)))) t hw
    refine .inr ⟨_, _, _, rfl, rfl, ⟨fun fd h _ => h4 fd h, ?_, ?_, ?_, ?_, h5⟩, h4 m hm, ?_⟩
    · intro fd h
      rcases List.mem_append.1 h with h | h
      · exact .inr (h3 fd h).1
      · exact .inl h
    · intro fd h
      rcases List.mem_append.1 h with h | h
      · exact (h3 fd h).2
      · rw [List.mem_singleton.1 h]
        exact fun hc => hm ((h4 m hm).symm.trans hc)
    · rw [List.nodup_append]
      refine ⟨h1, by simp, fun a ha b hb => ?_⟩
      rw [List.mem_singleton.1 hb]
      rintro rfl
      exact hm (h3 _ ha).1
    · exact fun fd h h' => List.mem_append_left _ (h6 fd h h')
    · show _ ≤ d.files.length
      rw [h2, List.length_take]
      omega

theorem Moves.shrink {t t' : FdTable} {o o1 o2 : List Nat} (h : Moves t o t' o1) (hs : o2.Sublist o1)
    (hg : ∀ fd, t.get fd = none → t'.get fd = none) : Moves t o t' o2 :=
  ⟨h.keep, fun fd hfd => h.fresh fd (hs.subset hfd), fun fd hfd => h.present fd (hs.subset hfd),
   hs.nodup h.nodup, fun fd h h' => absurd (hg fd h) h', h.wf⟩

theorem erase_none {t : FdTable} {n fd : Nat} (h : t.get fd = none) : (t.erase n).get fd = none := by
  rw [FdTable.get_erase]
  split <;> simp_all

/-- Dropping what came with the first message. -/
theorem Moves.head {t : FdTable} {fds : List Nat} {m : Nat} (hn : (fds ++ [m]).Nodup)
    (hp : ∀ n ∈ fds ++ [m], t.get n ≠ none) (hw : t.WF) :
    Moves t (fds ++ [m]) (dropHandle t fds.head?) [m] ∧ (dropHandle t fds.head?).get m = t.get m := by
  cases fds with
  | nil => exact ⟨Moves.stay hn hp hw, rfl⟩
  | cons fd fds =>
    refine ⟨(Moves.close hn hp hw).shrink (List.sublist_append_right _ _) (fun _ h => erase_none h), ?_⟩
    simp only [List.head?_cons, dropHandle]
    rw [FdTable.get_erase, if_neg]
    rintro rfl
    simp at hn

theorem Drops.head {t : FdTable} {fds : List Nat} {m : Nat} (h : fds.length ≤ 1) :
    Drops (dropHandle t fds.head?) (fds ++ [m]) [m] := by
  match fds, h with
  | [], _ => exact Drops.self _ _
  | [fd], _ => exact Drops.close t fd [m]

theorem go_greeted (t : FdTable) (c : ProcessConfig) (p : Policy) (caps : Caps) (os : NewOs)
    (m : Nat) (p' : Policy) (pid : Nat) (r : RecvMsg) (chd : Option Child) (hw : t.WF)
    (hn : (CreatePhase.greeted m p' pid (.ok r)).owned.Nodup)
    (hp : ∀ fd ∈ (CreatePhase.greeted m p' pid (.ok r)).owned, t.get fd ≠ none)
    (ho : PhaseOk t ⟨c, p, caps, os, .greeted m p' pid (.ok r), chd⟩) :
    GoOk t ⟨c, p, caps, os, .greeted m p' pid (.ok r), chd⟩
      (recvFinish decRequest t r).1
      ⟨c, p, caps, os, afterGreeting m p' pid (recvFinish decRequest t r).2, chd⟩ := by
  obtain ⟨hm, hpid, hr⟩ := ho
  obtain ⟨fds, hc, hl⟩ := hr r rfl
  have hown : (CreatePhase.greeted m p' pid (.ok r)).owned = fds ++ [m] := by
    simp only [CreatePhase.owned, hc, rights_fds]
  rw [hown] at hn hp
  have fails : ∀ (err : BrokerError) (l : List Nat) (t' : FdTable), Moves t (fds ++ [m]) t' l →
      (nfiles os ≤ 1 → Drops t' (fds ++ [m]) l) →
      GoOk t ⟨c, p, caps, os, .greeted m p' pid (.ok r), chd⟩ t' ⟨c, p, caps, os, .fail err l, chd⟩ := by
    intro err l t' h1 h2
    refine ⟨?_, ?_, fail_phaseOk _ ⟨c, p, caps, os, .begin, chd⟩ _ _, rfl, rfl, rfl, rfl⟩
    · show Moves t (CreatePhase.greeted m p' pid (.ok r)).owned t' (CreatePhase.fail err l).holding
      rw [hown, fail_holding]; exact h1
    · intro h
      show Drops t' (CreatePhase.greeted m p' pid (.ok r)).owned (CreatePhase.fail err l).holding
      rw [hown, fail_holding]; exact h2 h
  rcases recvFinish_table decRequest t r fds hc with ⟨q, he⟩ | ⟨h1, h2⟩
  · rw [he]
    have unexpected : GoOk t ⟨c, p, caps, os, .greeted m p' pid (.ok r), chd⟩ t
        ⟨c, p, caps, os, .fail .unexpectedWorkerMessage (fds.head?.toList ++ [m]), chd⟩ := by
      apply fails
      · refine (Moves.stay hn hp hw).shrink ?_ (fun _ h => h)
        apply List.Sublist.append _ (List.Sublist.refl _)
        cases fds <;> simp
      · intro h
        have : fds.length ≤ 1 := Nat.le_trans hl h
        match fds, this with
        | [], _ => exact Drops.self _ _
        | [fd], _ => exact Drops.self _ _
    cases fds with
    | cons fd fds => cases q <;> exact unexpected
    | nil =>
      cases q with
      | initialization =>
        refine ⟨?_, ?_, ⟨hm, hpid⟩, rfl, rfl, rfl, rfl⟩
        · show Moves t (CreatePhase.greeted m p' pid (.ok r)).owned t [m]
          rw [hown]; exact Moves.stay hn hp hw
        · intro _
          show Drops t (CreatePhase.greeted m p' pid (.ok r)).owned [m]
          rw [hown]; exact Drops.self _ _
      | openFile path flags => exact unexpected
      | syscall nb args ip => exact unexpected
  · rw [h1]
    have key : ∃ err, afterGreeting m p' pid (recvFinish decRequest t r).2 = .fail err [m] := by
      generalize (recvFinish decRequest t r).2 = y at h2
      unfold afterGreeting
      split
      · exact absurd rfl (h2 _ _)
      · exact absurd rfl (h2 _ _)
      · exact ⟨_, rfl⟩
      · exact ⟨_, rfl⟩
    obtain ⟨err, he⟩ := key
    rw [he]
    exact fails _ _ _ (Moves.head hn hp hw).1 fun h => Drops.head (Nat.le_trans hl h)

theorem go_ok (abi : Abi) (t : FdTable) (x : Creation) (hx : x.phase.over = false) (hw : t.WF)
    (hn : x.phase.owned.Nodup) (hp : ∀ fd ∈ x.phase.owned, t.get fd ≠ none) (ho : PhaseOk t x) :
    GoOk t x (x.go abi t).1 (x.go abi t).2 := by
  obtain ⟨c, p, caps, os, ph, chd⟩ := x
  have stay : ∀ (ph' : CreatePhase) (chd' : Option Child), ph'.holding = ph.owned →
      PhaseOk t ⟨c, p, caps, os, ph', chd'⟩ →
      GoOk t ⟨c, p, caps, os, ph, chd⟩ t ⟨c, p, caps, os, ph', chd'⟩ := by
    intro ph' chd' h1 h2
    refine ⟨?_, ?_, h2, rfl, rfl, rfl, rfl⟩
    · show Moves t ph.owned t ph'.holding
      rw [h1]; exact Moves.stay hn hp hw
    · intro _
      show Drops t ph.owned ph'.holding
      rw [h1]; exact Drops.self _ _
  have fails : ∀ (err : BrokerError) (l : List Nat), l = ph.owned →
      GoOk t ⟨c, p, caps, os, ph, chd⟩ t ⟨c, p, caps, os, .fail err l, chd⟩ := fun err l e =>
    stay _ _ (by rw [fail_holding, e]) (fail_phaseOk _ ⟨c, p, caps, os, .begin, chd⟩ _ _)
  have closes : ∀ (fd : Nat) (l : List Nat) (ph' : CreatePhase), ph.owned = fd :: l → ph'.holding = l →
      PhaseOk (t.erase fd) ⟨c, p, caps, os, ph', chd⟩ →
      GoOk t ⟨c, p, caps, os, ph, chd⟩ (t.erase fd) ⟨c, p, caps, os, ph', chd⟩ := by
    intro fd l ph' h1 h2 h3
    refine ⟨?_, ?_, h3, rfl, rfl, rfl, rfl⟩
    · show Moves t ph.owned _ ph'.holding
      rw [h1, h2]
      exact Moves.close (h1 ▸ hn) (h1 ▸ hp) hw
    · intro _
      show Drops _ ph.owned ph'.holding
      rw [h1, h2]
      exact Drops.close _ _ _
  cases ph with
  | begin =>
    simp only [Creation.go]
    cases hs : os.socketpair with
    | error e => exact stay _ _ rfl trivial
    | ok y =>
      obtain ⟨a, b⟩ := y
      obtain ⟨h1, h2, h3⟩ := two_free t ⟨a, 0#32⟩
      refine ⟨Moves.two _ _ hn hp hw, fun _ _ h => (by cases h), ⟨a, b, hs, ?_, ?_⟩, rfl, rfl, rfl, rfl⟩
      · show ((t.alloc ⟨a, 0#32⟩).2.alloc ⟨b, 0#32⟩).2.get t.lowestFree = _
        rw [two_get, if_neg (Ne.symm h3), if_pos rfl]
      · show ((t.alloc ⟨a, 0#32⟩).2.alloc ⟨b, 0#32⟩).2.get (t.alloc ⟨a, 0#32⟩).2.lowestFree = _
        rw [two_get, if_pos rfl]
  | paired e =>
    have hc : ChanIs ⟨c, p, caps, os, .paired e, chd⟩ t e := ho
    obtain ⟨a, b, h1, h2, h3⟩ := hc
    simp only [Creation.go, sysGetFd, h3]
    exact stay _ _ rfl ⟨⟨a, b, h1, h2, h3⟩, rfl⟩
  | marking e f =>
    obtain ⟨⟨a, b, h1, h2, h3⟩, hf⟩ := ho
    subst hf
    simp only [Creation.go, sysSetFd, h3]
    have hne : e.mine ≠ e.theirs := by
      intro h; simp [CreatePhase.owned, h] at hn
    refine ⟨Moves.set _ (by simp [CreatePhase.owned]) hn hp hw, fun _ => Drops.self _ _, ⟨⟨a, b, h1, ?_, ?_⟩, ?_⟩,
      rfl, rfl, rfl, rfl⟩
    · rw [FdTable.get_set, if_neg hne]; exact h2
    · rw [FdTable.get_set, if_pos rfl]; simp
    · intro n
      simp only [List.mem_cons, streams]
  | checking e p1 left =>
    obtain ⟨hc, hpol⟩ := ho
    cases left with
    | nil =>
      simp only [Creation.go, afterChecks]
      generalize hr : c.setEnv (ipcHandleVar e.theirs) = r
      obtain ⟨r, c'⟩ := r
      cases r with
      | error err => exact fails _ _ rfl
      | ok u =>
        simp only
        by_cases ha : c'.argv = []
        · rw [if_pos ha]; exact fails _ _ rfl
        · rw [if_neg ha]
          exact stay _ _ rfl ⟨hc, hpol, (setEnv_ok hr).2⟩
    | cons fd left =>
      simp only [Creation.go]
      cases ha : allowHandle t p1 fd with
      | error err => exact fails _ _ rfl
      | ok p2 =>
        refine stay _ _ rfl ⟨hc, ?_⟩
        intro n
        rw [(allowHandle_ok ha).2]
        show n ∈ setInsert p1.inherit fd ∨ n ∈ left ↔ _
        rw [← hpol n, mem_setInsert, List.mem_cons, or_assoc]
  | piping e p1 c1 =>
    obtain ⟨hc, hpol, hcfg⟩ := ho
    simp only [Creation.go]
    cases hs : os.proc.pipe with
    | error e => exact fails _ _ rfl
    | ok y =>
      obtain ⟨r, w⟩ := y
      obtain ⟨h1, h2, h3⟩ := two_free t ⟨r, 0#32⟩
      have hmv := Moves.two ⟨r, 0#32⟩ ⟨w, 0#32⟩ hn hp hw
      refine ⟨hmv, fun _ fd hfd _ => List.mem_cons_of_mem _ (List.mem_cons_of_mem _ hfd),
        ⟨hc.congr ?_ ?_, hpol, hcfg, r, hs, ?_, ?_⟩, rfl, rfl, rfl, rfl⟩
      · have := hp e.mine (by simp [CreatePhase.owned])
        show ((t.alloc ⟨r, 0#32⟩).2.alloc ⟨w, 0#32⟩).2.get e.mine = _
        rw [two_get, if_neg (fun h => this (by rw [h]; exact h2)), if_neg (fun h => this (by rw [h]; exact h1))]
      · have := hp e.theirs (by simp [CreatePhase.owned])
        show ((t.alloc ⟨r, 0#32⟩).2.alloc ⟨w, 0#32⟩).2.get e.theirs = _
        rw [two_get, if_neg (fun h => this (by rw [h]; exact h2)), if_neg (fun h => this (by rw [h]; exact h1))]
      · show ((t.alloc ⟨r, 0#32⟩).2.alloc ⟨w, 0#32⟩).2.get t.lowestFree = _
        rw [two_get, if_neg (Ne.symm h3), if_pos rfl]
      · show ((t.alloc ⟨r, 0#32⟩).2.alloc ⟨w, 0#32⟩).2.get (t.alloc ⟨r, 0#32⟩).2.lowestFree = _
        rw [two_get, if_pos rfl]
  | piped e p1 c1 q =>
    obtain ⟨hc, hpol, hcfg, r, h1, h2, h3⟩ := ho
    simp only [Creation.go, sysGetFd, h3]
    exact stay _ _ rfl ⟨hc, hpol, hcfg, ⟨r, h1, h2, h3⟩, rfl⟩
  | sealing e p1 c1 q f =>
    obtain ⟨hc, hpol, hcfg, ⟨r, h1, h2, h3⟩, hf⟩ := ho
    subst hf
    simp only [Creation.go, sysSetFd, h3]
    simp only [CreatePhase.owned, List.nodup_cons, List.mem_cons, List.not_mem_nil, or_false, not_or] at hn
    refine ⟨Moves.set _ (by simp [CreatePhase.owned]) ?_ hp hw, fun _ => Drops.self _ _,
      ⟨hc.congr ?_ ?_, hpol, hcfg, r, h1, ?_, ?_⟩, rfl, rfl, rfl, rfl⟩
    · simpa [CreatePhase.owned] using hn
    · rw [FdTable.get_set, if_neg (Ne.symm hn.1.2.2)]
    · rw [FdTable.get_set, if_neg (Ne.symm hn.1.2.1)]
    · rw [FdTable.get_set, if_neg (Ne.symm hn.1.1)]; exact h2
    · rw [FdTable.get_set, if_pos rfl]; simp
  | cloning e p1 c1 q =>
    obtain ⟨hc, hpol, hcfg, hq⟩ := ho
    simp only [Creation.go]
    cases htc : tryClone os.proc with
    | error err => exact fails _ _ rfl
    | ok y => exact stay _ _ rfl ⟨hc, rfl⟩
  | cloned e p1 q ch =>
    obtain ⟨hc, hch⟩ := ho
    simp only [CreatePhase.owned, List.nodup_cons, List.mem_cons, List.not_mem_nil, or_false, not_or] at hn
    refine closes q.wr _ _ rfl rfl ⟨hc.congr ?_ ?_, hch⟩
    · rw [FdTable.get_erase, if_neg (Ne.symm hn.1.2.2)]
    · rw [FdTable.get_erase, if_neg (Ne.symm hn.1.2.1)]
  | reading e p1 q ch =>
    obtain ⟨hc, hch⟩ := ho
    refine stay _ _ rfl ⟨hc, ?_⟩
    intro pid hpid
    refine ⟨ch, hch, ?_⟩
    unfold readErrno at hpid
    split at hpid
    · cases hpid; rfl
    · simp only at hpid
      split at hpid
      · cases hpid
      · cases hpid; rfl
  | read e p1 rd r =>
    obtain ⟨hc, hpid⟩ := ho
    simp only [CreatePhase.owned, List.nodup_cons, List.mem_cons, List.not_mem_nil, or_false, not_or] at hn
    cases r with
    | error err =>
      exact closes rd _ (.fail err _) rfl (fail_holding _ _) (fail_phaseOk _ ⟨c, p, caps, os, .begin, chd⟩ _ _)
    | ok pid =>
      refine closes rd _ _ rfl rfl ⟨hc.congr ?_ ?_, hpid pid rfl⟩
      · rw [FdTable.get_erase, if_neg (Ne.symm hn.1.2)]
      · rw [FdTable.get_erase, if_neg (Ne.symm hn.1.1)]
  | handing e p1 pid =>
    obtain ⟨⟨a, b, h1, h2, h3⟩, hpid⟩ := ho
    simp only [CreatePhase.owned, List.nodup_cons, List.mem_cons, List.not_mem_nil, or_false] at hn
    refine closes e.theirs _ _ rfl rfl ⟨⟨a, b, h1, ?_⟩, hpid⟩
    rw [FdTable.get_erase, if_neg (Ne.symm hn.1)]
    exact h2
  | greeting m p1 pid =>
    obtain ⟨hm, hpid⟩ := ho
    have hmn : t.get m ≠ none := hp m (by simp [CreatePhase.owned])
    simp only [Creation.go]
    rcases startRecv_moves abi t os.osFirst os.first m hw hmn with ⟨e, he⟩ | ⟨t', r, fds, he, hc, hmv, hsame, hl⟩
    · rw [he]
      exact stay _ _ rfl ⟨hm, hpid, fun r' h => by cases h⟩
    · rw [he]
      have hown : (CreatePhase.greeted m p1 pid (.ok r)).holding = fds ++ [m] := by
        simp only [CreatePhase.holding, CreatePhase.owned, hc, rights_fds]
      refine ⟨?_, ?_, ⟨hm.congr hsame, hpid, ?_⟩, rfl, rfl, rfl, rfl⟩
      · show Moves t [m] t' (CreatePhase.greeted m p1 pid (.ok r)).holding
        rw [hown]; exact hmv
      · intro _
        show Drops t' [m] (CreatePhase.greeted m p1 pid (.ok r)).holding
        rw [hown]
        exact fun fd h _ => List.mem_append_right _ h
      · intro r' h
        cases h
        exact ⟨fds, hc, hl⟩
  | greeted m p1 pid r =>
    cases r with
    | error e => exact fails _ _ rfl
    | ok r => exact go_greeted t c p caps os m p1 pid r chd hw hn hp ho
  | answering m p1 pid =>
    simp only [Creation.go]
    split
    · exact fails _ _ rfl
    · exact stay _ _ rfl ho
  | spawning m p1 pid =>
    simp only [Creation.go]
    cases os.spawnOk with
    | true => exact stay _ _ rfl ho.2
    | false => exact fails _ _ rfl
  | failing err l =>
    cases l with
    | nil => exact stay _ _ rfl trivial
    | cons fd l =>
      exact closes fd _ _ rfl (fail_holding _ _) (fail_phaseOk _ ⟨c, p, caps, os, .begin, chd⟩ _ _)
  | failed err => cases hx
  | served m pid => cases hx

/-! ## The process created -/

theorem ipcVar_text (n : Nat) :
    ipcHandleVar n = utf8 (c!"SANDBOX_IPC_HANDLE=" ++ (toString n).toList) := by
  simp only [ipcHandleVar, IPC_HANDLE_ENV_NAME, dec]
  rw [show (toString n).toList = Nat.toDigits 10 n from Nat.toList_repr]
  rfl

/-- A process is created by `clone` only. -/
theorem go_child (abi : Abi) (t : FdTable) (x : Creation) (ch : Child) (h : (x.go abi t).2.child = some ch) :
    x.child = some ch ∨ ∃ e p c q, x.phase = .cloning e p c q ∧
      ch.ending = cloneEntrypoint x.os.proc.entry (entryParams p c x.os.proc q.wr) t x.caps := by
  obtain ⟨c, p, caps, os, ph, chd⟩ := x
  cases ph <;> simp only [Creation.go] at h
  case cloning e p1 c1 q =>
    split at h
    · exact .inl h
    · right
      refine ⟨e, p1, c1, q, rfl, ?_⟩
      cases h
      rfl
  case checking e p1 left =>
    cases left with
    | nil => exact .inl h
    | cons fd left => simp only at h; split at h <;> exact .inl h
  case greeted m p1 pid r => cases r <;> exact .inl h
  case failing err l => cases l <;> exact .inl h
  all_goals first | exact .inl h | (split at h <;> exact .inl h)

end Iris
