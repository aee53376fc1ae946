import Verif.Spec.Budget
import Verif.Lemmas.Budget
import Verif.Props.WholeBroker
/-!
# C144: what workers cost a Linux broker is bounded

Whatever workers send, however long they run and however the broker's threads are interleaved, the
broker holds few descriptors for each of them, creates each in few system calls, and answers or
gives up each request in few steps of the thread serving its worker.
-/
namespace Iris
open Spec

theorem atMost_sub {P : Nat → Prop} {o lost : List Nat} {n : Nat} (h : ∀ fd, P fd → fd ∈ o ++ lost)
    (hn : o.length + lost.length ≤ n) : AtMost n P :=
  ⟨o ++ lost, by rw [List.length_append]; exact hn, h⟩

/-- The model's count, for a worker that is served. -/
theorem cost_served [Target] {abi : Abi} {ok : FdTable → Prop} {w w' : WholeBroker} {ls : List BrokerEvent}
    (h : NothingYet w) (he : WholeExec abi ok Declared w ls w') {j : Nat} {th : Loop} (ht : w'.threads j = some th) :
    ∃ lost, (∀ fd, HeldFor j ls fd → fd ∈ th.owned ++ lost) ∧ lost.length ≤ abi.extra ∧
      (lost ≠ [] → th.phase.dying = true) ∧ th.arrived.length ≤ abi.extra + 1 := by
  obtain ⟨lost, hc⟩ := cost_exec h he j
  obtain ⟨x, pid, h1, h2, _⟩ := (whole_exec h he).2.served j th ht
  have hh := hc.held
  rw [fds_thread h1 h2 ht] at hh
  exact ⟨lost, hh, hc.few, hc.thread th ht⟩

theorem owned_le {th : Loop} {n : Nat} (h : th.arrived.length ≤ n + 1) : th.owned.length ≤ n + 2 := by
  unfold Loop.arrived at h
  unfold Loop.owned
  split
  · rename_i hp; rw [hp] at h; simp only [List.length_cons]; simp only at h; omega
  · rename_i o _; cases o <;> simp
  · rename_i o _ _; cases o <;> simp
  · exact Nat.zero_le _
  · simp

theorem owned_dying {th : Loop} (h : th.phase.dying = true) : th.owned.length ≤ 2 := by
  unfold Loop.owned
  split
  · rename_i hp; rw [hp] at h; cases h
  · rename_i o _; cases o <;> simp
  · rename_i o _ _; cases o <;> simp
  · exact Nat.zero_le _
  · simp

/-- C144. At no time are there more than four descriptors that were opened for a worker, creating it or serving
it, and were not closed. -/
theorem C144_budget [Target] (abi : Abi) (ok : FdTable → Prop) (w w' : WholeBroker) (ls : List BrokerEvent) (h : NothingYet w)
    (he : WholeExec abi ok Declared w ls w') (j : Nat) : AtMost 4 (HeldFor j ls) := by
  have hex := extra_le abi
  cases ht : w'.threads j with
  | some th =>
    obtain ⟨lost, h1, h2, h3, h4⟩ := cost_served h he ht
    refine atMost_sub h1 ?_
    by_cases hl : lost = []
    · rw [hl]
      have := owned_le h4
      simp only [List.length_nil]; omega
    · have := owned_dying (h3 hl)
      omega
  | none =>
    obtain ⟨lost, hc⟩ := cost_exec h he j
    cases hx : w'.calls j with
    | none =>
      have hh := hc.held
      rw [fds_none hx ht, hc.absent hx] at hh
      exact ⟨[], Nat.zero_le _, hh⟩
    | some x =>
      have hh := hc.held
      rw [fds_call hx ht] at hh
      exact atMost_sub hh (hc.call x hx ht).2.1

/-- C144. So `n` workers do not make more than `4 * n`. -/
theorem C144_total [Target] (abi : Abi) (ok : FdTable → Prop) (w w' : WholeBroker) (ls : List BrokerEvent) (h : NothingYet w)
    (he : WholeExec abi ok Declared w ls w') : AtMost (4 * (madeIn ls).length) fun fd => ∃ j, HeldFor j ls fd := by
  have hmade : ∀ j x, w'.calls j = some x → j ∈ madeIn ls := by
    have snoc : ∀ (ls : List BrokerEvent) l, madeIn (ls ++ [l]) = madeIn ls ++ madeIn [l] := by
      intro ls l; simp only [madeIn, List.filterMap_append]
    induction he with
    | start _ => intro j x hx; rw [h.calls] at hx; cases hx
    | call ls w1 k c p caps os he1 hk hb ih =>
      intro j x hx
      rw [snoc]
      by_cases e : j = k
      · exact List.mem_append_right _ (by simp [madeIn, e])
      · have e1 : (w1.made k (.make c p caps os)).calls j = w1.calls j := by simp [WholeBroker.made, e]
        rw [e1] at hx
        exact List.mem_append_left _ (ih j x hx)
    | go ls w1 k y he1 hk hy hokt ih =>
      intro j x hx
      rw [snoc]
      apply List.mem_append_left
      by_cases e : j = k
      · subst e; exact ih j y hk
      · have e1 : (w1.create abi k y).calls j = w1.calls j := by simp [WholeBroker.create, e]
        rw [e1] at hx
        exact ih j x hx
    | recv ls w1 k th inc os he1 hk hidle hokt ih =>
      intro j x hx
      rw [snoc]
      exact List.mem_append_left _ (ih j x hx)
    | serve ls w1 k th he1 hk hokt ih =>
      intro j x hx
      rw [snoc]
      exact List.mem_append_left _ (ih j x hx)
    | other ls w1 t he1 hn ho ht hb hokt ih => exact ih
  have hall : ∀ js : List Nat, AtMost (4 * js.length) fun fd => ∃ j ∈ js, HeldFor j ls fd := by
    intro js
    induction js with
    | nil => exact ⟨[], Nat.zero_le _, fun fd hf => by obtain ⟨j, hj, _⟩ := hf; cases hj⟩
    | cons j js ih =>
      obtain ⟨l, h1, h2⟩ := ih
      obtain ⟨l', g1, g2⟩ := C144_budget abi ok w w' ls h he j
      refine ⟨l' ++ l, by rw [List.length_append, List.length_cons]; omega, ?_⟩
      rintro fd ⟨k, hk, hf⟩
      rcases List.mem_cons.1 hk with rfl | hk
      · exact List.mem_append_left _ (g2 fd hf)
      · exact List.mem_append_right _ (h2 fd ⟨k, hk, hf⟩)
  obtain ⟨l, h1, h2⟩ := hall (madeIn ls)
  refine ⟨l, h1, ?_⟩
  rintro fd ⟨j, hf⟩
  refine h2 fd ⟨j, ?_, hf⟩
  cases hx : w'.calls j with
  | some x => exact hmade j x hx
  | none =>
    obtain ⟨lost, hc⟩ := cost_exec h he j
    have hnt : w'.threads j = none := by
      cases ht : w'.threads j with
      | none => rfl
      | some th => obtain ⟨y, _, h1, _⟩ := (whole_exec h he).2.served j th ht; rw [hx] at h1; cases h1
    have := hc.held fd hf
    rw [fds_none hx hnt, hc.absent hx] at this
    cases this

/-- C144. While a worker is served there are at most three: its channel and what came with a message; -/
theorem C144_serving [Target] (abi : Abi) (ok : FdTable → Prop) (w w' : WholeBroker) (ls : List BrokerEvent) (h : NothingYet w)
    (he : WholeExec abi ok Declared w ls w') (j : Nat) (th : Loop) (ht : w'.threads j = some th) : AtMost 3 (HeldFor j ls) := by
  have hex := extra_le abi
  obtain ⟨lost, h1, h2, h3, h4⟩ := cost_served h he ht
  refine atMost_sub h1 ?_
  by_cases hl : lost = []
  · rw [hl]
    have := owned_le h4
    simp only [List.length_nil]; omega
  · have := owned_dying (h3 hl)
    omega

/-- C144. and between two requests the channel is the only one, whatever came with the requests before. -/
theorem C144_idle [Target] (abi : Abi) (ok : FdTable → Prop) (w w' : WholeBroker) (ls : List BrokerEvent) (h : NothingYet w)
    (he : WholeExec abi ok Declared w ls w') (j : Nat) (th : Loop) (ht : w'.threads j = some th) (hp : th.phase = .idle)
    (fd : Nat) : HeldFor j ls fd ↔ fd = th.chan := by
  obtain ⟨lost, h1, h2, h3, h4⟩ := cost_served h he ht
  have hl : lost = [] := by
    apply Classical.byContradiction
    intro hl
    have := h3 hl
    rw [hp] at this; cases this
  have hown : th.owned = [th.chan] := by simp [Loop.owned, hp]
  rw [hl, hown] at h1
  have hi := (whole_exec h he).2
  obtain ⟨x, pid, g1, g2, _⟩ := hi.served j th ht
  constructor
  · intro hh; simpa using h1 fd hh
  · rintro rfl
    refine hi.fd.holds j _ ?_
    rw [fds_thread g1 g2 ht, hown]
    exact List.mem_singleton_self _

/-- The model's count, for a worker that is over. -/
theorem cost_over [Target] {abi : Abi} {ok : FdTable → Prop} {w w' : WholeBroker} {ls : List BrokerEvent}
    (h : NothingYet w) (he : WholeExec abi ok Declared w ls w') {j : Nat} (ho : IsOver w' j) :
    AtMost abi.extra (HeldFor j ls) := by
  rcases ho with ⟨x, err, hx, hp⟩ | ⟨th, why, ht, hp⟩
  · obtain ⟨lost, hc⟩ := cost_exec h he j
    have hnt : w'.threads j = none := by
      cases ht : w'.threads j with
      | none => rfl
      | some th =>
        obtain ⟨y, pid, h1, h2, _⟩ := (whole_exec h he).2.served j th ht
        rw [hx] at h1; cases h1
        rw [hp] at h2; cases h2
    have hh := hc.held
    rw [fds_call hx hnt, hp] at hh
    exact ⟨lost, hc.few, hh⟩
  · obtain ⟨lost, h1, h2, _⟩ := cost_served h he ht
    have hown : th.owned = [] := by simp [Loop.owned, hp]
    rw [hown] at h1
    exact ⟨lost, h2, h1⟩

/-- C144 on 32-bit targets: nothing is left open for a worker that is over, whatever it sent. -/
theorem C144_over_ilp32 [Target] : LeavesNothing .ilp32 := by
  intro w w' ls j h he ho fd hf
  obtain ⟨l, h1, h2⟩ := cost_over h he ho
  have : l = [] := List.eq_nil_of_length_eq_zero (Nat.le_zero.1 h1)
  subst this
  cases h2 fd hf

/-- C144 on x86_64, what holds: at most one descriptor is left open for a worker that is over. Missing: it may be
left open (`C144_violated`), so that a broker needs one more descriptor for each worker it has ever had. -/
theorem C144_over_partial [Target] (abi : Abi) (ok : FdTable → Prop) (w w' : WholeBroker) (ls : List BrokerEvent)
    (h : NothingYet w) (he : WholeExec abi ok Declared w ls w') (j : Nat) (ho : IsOver w' j) :
    AtMost 1 (HeldFor j ls) := by
  obtain ⟨l, h1, h2⟩ := cost_over h he ho
  exact ⟨l, Nat.le_trans h1 (extra_le abi), h2⟩

/-! ## Steps -/

theorem creates_eq (j : Nat) (ls : List BrokerEvent) : createsOf j ls = systemCalls j (creations ls) := by
  unfold createsOf systemCalls creations
  induction ls with
  | nil => rfl
  | cons l ls ih =>
    cases l <;> simp only [List.filter_cons, List.filterMap_cons, Bool.false_eq_true, if_false] <;> first
      | exact ih
      | (split <;> simp [ih])

/-- C144. A worker is created, or its creation has failed, after at most 22 system calls of the thread creating it. -/
theorem C144_creates [Target] (abi : Abi) (ok : FdTable → Prop) (w w' : WholeBroker) (ls : List BrokerEvent) (h : NothingYet w)
    (he : WholeExec abi ok Declared w ls w') (j : Nat) : createsOf j ls ≤ 22 ∧
      ∀ x, w'.calls j = some x → createsOf j ls = 22 → (∃ err, x.phase = .failed err) ∨ ∃ m pid, x.phase = .served m pid := by
  obtain ⟨h1, h2⟩ := C129_returns abi _ _ _ ⟨h.calls, h.nodup⟩ (whole_exec h he).1 j
  rw [creates_eq]
  refine ⟨h1, fun x hx h22 => ?_⟩
  have := h2 x hx h22
  cases hp : x.phase <;> rw [hp] at this <;> first | exact .inl ⟨_, rfl⟩ | exact .inr ⟨_, _, rfl⟩ | cases this

/-- Steps that may be left of the request being served. -/
def stepsLeft (j : Nat) (ls : List BrokerEvent) : Nat :=
  ls.foldl (fun n l => match l with
    | .recv k _ _ _ _ => if k = j then 5 else n
    | .serve k _ _ => if k = j then n - 1 else n
    | _ => n) 0

theorem stepsLeft_snoc (j : Nat) (ls : List BrokerEvent) (l : BrokerEvent) :
    stepsLeft j (ls ++ [l]) = match l with
      | .recv k _ _ _ _ => if k = j then 5 else stepsLeft j ls
      | .serve k _ _ => if k = j then stepsLeft j ls - 1 else stepsLeft j ls
      | _ => stepsLeft j ls := by
  simp only [stepsLeft, List.foldl_append, List.foldl_cons, List.foldl_nil]

theorem rank_exec [Target] {abi : Abi} {ok : FdTable → Prop} {w w' : WholeBroker} {ls : List BrokerEvent}
    (h : NothingYet w) (he : WholeExec abi ok Declared w ls w') (j : Nat) :
    (∀ th, w'.threads j = some th → th.phase.rank ≤ stepsLeft j ls) ∧
    (receivedBy j ls ≠ [] → (w'.threads j).isSome) := by
  induction he with
  | start _ =>
    refine ⟨fun th ht => ?_, fun h => absurd rfl h⟩
    rw [h.threads] at ht
    cases ht
  | call ls w1 k c p caps os he1 hk hb ih =>
    rw [stepsLeft_snoc, receivedBy_other j ls _ (by simp)]
    exact ih
  | go ls w1 k x he1 hk hx hokt ih =>
    rw [stepsLeft_snoc, receivedBy_other j ls _ (by simp)]
    by_cases e : j = k
    · subst e
      have hnt : w1.threads j = none := by
        cases ht : w1.threads j with
        | none => rfl
        | some th =>
          obtain ⟨y, pid, h1, h2, _⟩ := (whole_exec h he1).2.served j th ht
          rw [hk] at h1; cases h1
          rw [h2] at hx; cases hx
      refine ⟨fun th ht => ?_, fun hr => ?_⟩
      · have ht' : x.thread = some th := by simpa [WholeBroker.create] using ht
        obtain ⟨m, p, pid, _, h2, _⟩ := thread_some abi w1.table x th ht'
        rw [h2]; exact Nat.zero_le _
      · have := ih.2 hr
        rw [hnt] at this; cases this
    · have e2 : (w1.create abi k x).threads j = w1.threads j := by simp [WholeBroker.create, e]
      rw [e2]; exact ih
  | recv ls w1 k th inc os he1 hk hidle hokt ih =>
    by_cases e : k = j
    · subst e
      have e2 : (w1.served k (th.receive abi w1.table inc os)).threads k = some (th.receive abi w1.table inc os).2 := by
        simp [WholeBroker.served]
      rw [e2]
      refine ⟨fun th' ht => ?_, fun _ => rfl⟩
      cases ht
      rw [stepsLeft_snoc]
      simp only [if_pos]
      exact Nat.le_refl 5
    · have e2 : (w1.served k (th.receive abi w1.table inc os)).threads j = w1.threads j := by
        simp [WholeBroker.served, Ne.symm e]
      rw [e2, stepsLeft_snoc, receivedBy_recv]
      simp only [if_neg e, List.append_nil]
      exact ih
  | serve ls w1 k th he1 hk hokt ih =>
    rw [stepsLeft_snoc, receivedBy_other j ls _ (by simp)]
    by_cases e : k = j
    · subst e
      have e2 : (w1.served k (th.go abi w1.table)).threads k = some (th.go abi w1.table).2 := by simp [WholeBroker.served]
      rw [e2]
      refine ⟨fun th' ht => ?_, fun _ => rfl⟩
      cases ht
      have h1 := ih.1 th hk
      have h2 := rank_go abi w1.table th
      simp only [if_pos]
      omega
    · have e2 : (w1.served k (th.go abi w1.table)).threads j = w1.threads j := by simp [WholeBroker.served, Ne.symm e]
      rw [e2]
      simp only [if_neg e]
      exact ih
  | other ls w1 t he1 hn ho ht hb hokt ih => exact ih

theorem stepsLeft_after (j : Nat) (l1 l2 : List BrokerEvent) (inc : Incoming) (os : OsChoice) (b a : FdTable)
    (h : receivedBy j l2 = []) : stepsLeft j (l1 ++ .recv j inc os b a :: l2) = 5 - servesOf j l2 := by
  have key : ∀ (l : List BrokerEvent) n, receivedBy j l = [] → l.foldl (fun n l => match l with
      | .recv k _ _ _ _ => if k = j then 5 else n
      | .serve k _ _ => if k = j then n - 1 else n
      | _ => n) n = n - servesOf j l := by
    intro l
    induction l with
    | nil => intro n _; rfl
    | cons e l ih =>
      intro n hr
      cases e with
      | recv k inc os b a =>
        by_cases hk : k = j
        · simp [receivedBy, hk] at hr
        · simp only [receivedBy, List.filterMap_cons, if_neg hk] at hr
          simp only [List.foldl_cons, if_neg hk]
          rw [ih n hr]
          simp [servesOf]
      | serve k b a =>
        have hr' : receivedBy j l = [] := by simpa [receivedBy] using hr
        by_cases hk : k = j
        · simp only [List.foldl_cons, if_pos hk]
          rw [ih _ hr']
          simp only [servesOf, List.filter_cons, hk, beq_self_eq_true, if_true, List.length_cons]
          omega
        · simp only [List.foldl_cons, if_neg hk]
          rw [ih _ hr']
          simp [servesOf, hk]
      | made k c p caps os b =>
        have hr' : receivedBy j l = [] := by simpa [receivedBy] using hr
        simp only [List.foldl_cons]
        rw [ih _ hr']
        simp [servesOf]
      | step k b a =>
        have hr' : receivedBy j l = [] := by simpa [receivedBy] using hr
        simp only [List.foldl_cons]
        rw [ih _ hr']
        simp [servesOf]
  unfold stepsLeft
  rw [List.foldl_append, List.foldl_cons]
  simp only [if_pos]
  exact key l2 5 h

/-- C144. Once the thread serving a worker has received something, five steps of its own are enough to have
answered and be waiting for the next request, or to have ended, whatever the broker does meanwhile. -/
theorem C144_answers [Target] (abi : Abi) (ok : FdTable → Prop) (w w' : WholeBroker) (l1 l2 : List BrokerEvent) (h : NothingYet w)
    (j : Nat) (inc : Incoming) (os : OsChoice) (b a : FdTable)
    (he : WholeExec abi ok Declared w (l1 ++ .recv j inc os b a :: l2) w') (hlast : receivedBy j l2 = [])
    (h5 : 5 ≤ servesOf j l2) : ∃ th, w'.threads j = some th ∧ AtRest th := by
  obtain ⟨h1, h2⟩ := rank_exec h he j
  have hr : receivedBy j (l1 ++ .recv j inc os b a :: l2) ≠ [] := by simp [receivedBy]
  obtain ⟨th, ht⟩ := Option.isSome_iff_exists.1 (h2 hr)
  refine ⟨th, ht, rank_rest ?_⟩
  have := h1 th ht
  rw [stepsLeft_after j l1 l2 inc os b a hlast] at this
  omega

/-! ## Concrete cases -/

/-- `HeldFor`, computed. -/
def heldB (j : Nat) (ls : List BrokerEvent) : Nat → Bool :=
  ls.foldl (fun h l => match l with
    | .step k before after | .recv k _ _ before after | .serve k before after =>
      if k = j then fun fd => (after.get fd).isSome && (h fd || (before.get fd).isNone) else h
    | .made _ _ _ _ _ _ => h) fun _ => false

theorem heldB_iff (j : Nat) (ls : List BrokerEvent) (fd : Nat) : HeldFor j ls fd ↔ heldB j ls fd = true := by
  unfold HeldFor heldB
  suffices h : ∀ (g : Nat → Prop) (f : Nat → Bool), (∀ fd, g fd ↔ f fd = true) → ∀ fd, ls.foldl (fun h l => match l with
      | .step k before after | .recv k _ _ before after | .serve k before after =>
        if k = j then fun fd => after.get fd ≠ none ∧ (h fd ∨ before.get fd = none) else h
      | .made _ _ _ _ _ _ => h) g fd ↔ ls.foldl (fun h l => match l with
      | .step k before after | .recv k _ _ before after | .serve k before after =>
        if k = j then fun fd => (after.get fd).isSome && (h fd || (before.get fd).isNone) else h
      | .made _ _ _ _ _ _ => h) f fd = true from h _ _ (fun fd => by simp) fd
  induction ls with
  | nil => intro g f h; exact h
  | cons l ls ih =>
    intro g f h
    simp only [List.foldl_cons]
    apply ih
    intro fd
    cases l <;> simp only <;> first
      | exact h fd
      | (split
         · simp [Option.isSome_iff_ne_none, h fd]
         · exact h fd)

/-- Worker 0 asks for a file while worker 1 is being created, and its thread has time to answer. -/
def costSchedule : List Turn :=
  List.replicate 22 (.step 0) ++ [wholeAsks 0 100, .serve 0, .serve 0] ++ List.replicate 9 (.step 1) ++
    [.serve 0, .serve 0, .serve 0]

def costEnd (n : Nat) : List BrokerEvent × WholeBroker :=
  (costSchedule.take n).foldl (@WholeBroker.turn x86_64 .lp64 few) (wholeCalls brokerTable)

theorem costEnd_exec (n : Nat) : NothingYet ⟨brokerTable, fun _ => none, fun _ => none⟩ ∧
    @WholeExec x86_64 .lp64 Bounded Declared ⟨brokerTable, fun _ => none, fun _ => none⟩ (costEnd n).1 (costEnd n).2 :=
  ⟨⟨fun _ => rfl, fun _ => rfl, brokerTable_real.nodup⟩,
   @whole_mono x86_64 .lp64 (fun t => few t = true) _ (fun t h => by simpa [few, Bounded] using h) _ _ _
      (@whole_turns x86_64 .lp64 few _ _ _
        (@wholeCalls_exec x86_64 .lp64 _ brokerTable (by decide) (by decide) (by decide)))⟩

/-- There are four descriptors for worker 1 (a channel and a pipe) and two for worker 0, -/
example : (List.range 20).filter (heldB 0 (costEnd 34).1) = [5, 6] ∧
    (List.range 20).filter (heldB 1 (costEnd 34).1) = [8, 9, 10, 11] := by
  decide +kernel

/-- and when it has made five steps the thread of worker 0 is waiting, with its channel only. -/
example : receivedBy 0 ((costEnd 37).1.drop 21) = [] ∧ servesOf 0 ((costEnd 37).1.drop 21) = 5 ∧
    createsOf 0 (costEnd 37).1 = 18 ∧ (List.range 20).filter (heldB 0 (costEnd 37).1) = [5] ∧
    (wholeTrace (costEnd 37).2 0).map List.length = some 2 ∧ madeIn (costEnd 37).1 = [0, 1] := by
  decide +kernel

example : (((costEnd 37).1.drop 20).head?.bind fun l => match l with | .recv k _ _ _ _ => some k | _ => none) = some 0 := by
  decide +kernel

/-- A worker which sends two files, then nothing. -/
def leavingSchedule : List Turn :=
  List.replicate 22 (.step 0) ++
    [.recv 0 (.datagram ⟨encRequest (.openFile c!"/tmp/a" 0#32), [300, 301]⟩) ⟨2, .error 2, none⟩, .serve 0, .serve 0, .serve 0]

def leavingEnd (abi : Abi) : List BrokerEvent × WholeBroker :=
  leavingSchedule.foldl (@WholeBroker.turn x86_64 abi few) (wholeCalls brokerTable)

theorem leavingEnd_exec (abi : Abi) : NothingYet ⟨brokerTable, fun _ => none, fun _ => none⟩ ∧
    @WholeExec x86_64 abi Bounded Declared ⟨brokerTable, fun _ => none, fun _ => none⟩ (leavingEnd abi).1 (leavingEnd abi).2 :=
  ⟨⟨fun _ => rfl, fun _ => rfl, brokerTable_real.nodup⟩,
   @whole_mono x86_64 abi (fun t => few t = true) _ (fun t h => by simpa [few, Bounded] using h) _ _ _
      (@whole_turns x86_64 abi few _ _ _
        (@wholeCalls_exec x86_64 abi _ brokerTable (by decide) (by decide) (by decide)))⟩

/-- Whether the session of worker `j` has ended. -/
def goneB (w : WholeBroker) (j : Nat) : Bool :=
  match w.threads j with
  | some th => match th.phase with | .gone _ => true | _ => false
  | none => false

theorem goneB_over {w : WholeBroker} {j : Nat} (h : goneB w j = true) : IsOver w j := by
  unfold goneB at h
  split at h
  · rename_i th ht
    split at h
    · rename_i why hp; exact .inr ⟨th, why, ht, hp⟩
    · cases h
  · cases h

/-- On 32-bit targets nothing is left, -/
example : goneB (leavingEnd .ilp32).2 0 = true ∧ (List.range 20).filter (heldB 0 (leavingEnd .ilp32).1) = [] := by
  decide +kernel

/-- C144 is false on x86_64: the second of two files a worker sends stays open in the broker when the worker is over.
The next worker can do the same, so that creating and ending workers uses up the broker's descriptors. -/
theorem C144_violated : ¬ @LeavesNothing x86_64 .lp64 := by
  intro h
  have hb : heldB 0 (leavingEnd .lp64).1 8 = true := by decide +kernel
  have hg : goneB (leavingEnd .lp64).2 0 = true := by decide +kernel
  exact h _ _ _ 0 (leavingEnd_exec .lp64).1 (leavingEnd_exec .lp64).2 (goneB_over hg) 8 ((heldB_iff _ _ _).2 hb)

end Iris
