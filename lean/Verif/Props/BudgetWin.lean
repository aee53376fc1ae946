import Verif.Spec.BudgetWin
import Verif.Lemmas.BudgetWin
/-!
# C145: what workers cost a Windows broker is bounded

Whatever workers send, handles they name included, however long they run and however the broker's threads are
interleaved, the broker holds few handles for each of them, and answers or gives up each request in few steps of the thread
serving its worker.
-/
namespace Iris
open Spec

/-- The model's list, for a worker that is served. -/
theorem costWin_served {debug : Bool} {w w' : WholeWin} {ls : List WholeWinEvent} (h : NoWinWorkers w)
    (he : WholeWinExec debug DeclaredHandle w ls w') {j : Nat} {th : WinLoop} (ht : w'.threads j = some th) {x : WCreation}
    (hx : w'.calls j = some x) {n : BitVec 64} (hn : HandleFor j ls n) : n ∈ th.owned ∨ n = x.os.hProcess := by
  obtain ⟨y, q, h1, h2, _⟩ := (wholeWin_base h he).call j th ht
  rw [hx] at h1; cases h1
  obtain ⟨y, hy, hcase⟩ := (costWin_exec h he j).held n hn
  rw [hx] at hy; cases hy
  rcases hcase with g | ⟨th', g1, g2⟩ | ⟨g, _⟩
  · rw [WCreation.owned, h2] at g; cases g
  · rw [ht] at g1; cases g1
    exact .inl g2
  · exact .inr g

/-- C145. At no time are there more than four handles that were opened for a worker, creating it or serving it, and
were not closed. -/
theorem C145_budget (debug : Bool) (w w' : WholeWin) (ls : List WholeWinEvent) (h : NoWinWorkers w)
    (he : WholeWinExec debug DeclaredHandle w ls w') (j : Nat) : AtMost 4 (HandleFor j ls) := by
  have hc := costWin_exec h he j
  cases hx : w'.calls j with
  | none =>
    refine ⟨[], Nat.zero_le _, fun n hn => ?_⟩
    obtain ⟨x, h1, _⟩ := hc.held n hn
    rw [hx] at h1; cases h1
  | some x =>
    cases ht : w'.threads j with
    | some th =>
      refine ⟨th.owned ++ [x.os.hProcess], ?_, fun n hn => ?_⟩
      · have := winOwned_le th
        rw [List.length_append, List.length_singleton]; omega
      · rcases costWin_served h he ht hx hn with h1 | h1
        · exact List.mem_append_left _ h1
        · exact List.mem_append_right _ (List.mem_singleton.2 h1)
    | none =>
      have key : ∀ n, HandleFor j ls n → n ∈ x.owned ∨ (n = x.os.hProcess ∧ x.phase.gaveUp = true) := by
        intro n hn
        obtain ⟨y, hy, hcase⟩ := hc.held n hn
        rw [hx] at hy; cases hy
        rcases hcase with g | ⟨th', g1, g2⟩ | ⟨g, ⟨g1, _⟩ | ⟨q, m, r, g1⟩⟩
        · exact .inl g
        · rw [ht] at g1; cases g1
        · exact .inr ⟨g, g1⟩
        · obtain ⟨th, h1⟩ := (wholeWin_base h he).thread j x q m r hx g1
          rw [ht] at h1; cases h1
      have hs := hc.small x hx
      by_cases hg : x.phase.gaveUp = true
      · refine ⟨x.owned ++ [x.os.hProcess], ?_, fun n hn => ?_⟩
        · have := hs hg
          rw [List.length_append, List.length_singleton]; omega
        · rcases key n hn with h1 | ⟨h1, _⟩
          · exact List.mem_append_left _ h1
          · exact List.mem_append_right _ (List.mem_singleton.2 h1)
      · exact ⟨x.owned, callOwned_le hs, fun n hn => (key n hn).resolve_right fun h => hg h.2⟩

/-- C145. So `n` workers do not make more than `4 * n`. -/
theorem C145_total (debug : Bool) (w w' : WholeWin) (ls : List WholeWinEvent) (h : NoWinWorkers w)
    (he : WholeWinExec debug DeclaredHandle w ls w') : AtMost (4 * (winMadeIn ls).length) fun n => ∃ j, HandleFor j ls n := by
  have hmade : ∀ j x, w'.calls j = some x → j ∈ winMadeIn ls := by
    have snoc : ∀ (ls : List WholeWinEvent) l, winMadeIn (ls ++ [l]) = winMadeIn ls ++ winMadeIn [l] := by
      intro ls l; simp only [winMadeIn, List.filterMap_append]
    induction he with
    | start => intro j x hx; rw [show w.calls j = none from h.calls.calls j] at hx; cases hx
    | call ls w1 k c p os he1 hk hb ih =>
      intro j x hx
      rw [snoc]
      by_cases e : j = k
      · exact List.mem_append_right _ (by simp [winMadeIn, e])
      · have e1 : (w1.made k (.make c p os)).calls j = w1.calls j := by simp [WholeWin.made, e]
        rw [e1] at hx
        exact List.mem_append_left _ (ih j x hx)
    | go ls w1 k y he1 hk hy ih =>
      intro j x hx
      rw [snoc]
      apply List.mem_append_left
      by_cases e : j = k
      · subst e; exact ih j y hk
      · have e1 : (w1.create k y).calls j = w1.calls j := by simp [WholeWin.create, e]
        rw [e1] at hx
        exact ih j x hx
    | recv ls w1 k th inc os he1 hk hidle ih =>
      intro j x hx
      rw [snoc]
      exact List.mem_append_left _ (ih j x hx)
    | serve ls w1 k th he1 hk hf ih =>
      intro j x hx
      rw [snoc]
      exact List.mem_append_left _ (ih j x hx)
    | other ls w1 w2 workers he1 ho ht ih => exact ih
  have hall : ∀ js : List Nat, AtMost (4 * js.length) fun n => ∃ j ∈ js, HandleFor j ls n := by
    intro js
    induction js with
    | nil => exact ⟨[], Nat.zero_le _, fun n hf => by obtain ⟨j, hj, _⟩ := hf; cases hj⟩
    | cons j js ih =>
      obtain ⟨l, h1, h2⟩ := ih
      obtain ⟨l', g1, g2⟩ := C145_budget debug w w' ls h he j
      refine ⟨l' ++ l, by rw [List.length_append, List.length_cons]; omega, ?_⟩
      rintro n ⟨k, hk, hf⟩
      rcases List.mem_cons.1 hk with rfl | hk
      · exact List.mem_append_left _ (g2 n hf)
      · exact List.mem_append_right _ (h2 n ⟨k, hk, hf⟩)
  obtain ⟨l, h1, h2⟩ := hall (winMadeIn ls)
  refine ⟨l, h1, ?_⟩
  rintro n ⟨j, hf⟩
  obtain ⟨x, hx, _⟩ := (costWin_exec h he j).held n hf
  exact h2 n ⟨j, hmade j x hx, hf⟩

/-- C145. Between two requests the handles open for a worker are those of its pipe and of its process, the latter twice; once
its thread has ended, only the one of the process that `Worker` keeps. Unlike in C139, workers may name handles. -/
theorem C145_idle (debug : Bool) (w w' : WholeWin) (ls : List WholeWinEvent) (h : NoWinWorkers w)
    (he : WholeWinExec debug DeclaredHandle w ls w') (j : Nat) (c : ProcessConfig) (p : Policy) (os : LaunchOs)
    (before : WinWorld) (hm : .made j c p os before ∈ ls) (th : WinLoop) (ht : w'.threads j = some th) (n : BitVec 64)
    (hh : HandleFor j ls n) :
    (th.phase = .idle → n = th.pipe ∨ n = th.process ∨ n = os.hProcess) ∧ (th.phase = .gone → n = os.hProcess) := by
  obtain ⟨x, hx, _, _, h4⟩ := (wholeWin_base h he).made j c p os before hm
  have := costWin_served h he ht hx hh
  rw [h4] at this
  constructor
  · intro hp
    rw [WinLoop.owned, hp] at this
    simp only [List.mem_cons, List.not_mem_nil, or_false] at this
    rcases this with (h1 | h1) | h1
    · exact .inl h1
    · exact .inr (.inl h1)
    · exact .inr (.inr h1)
  · intro hp
    rw [WinLoop.owned, hp] at this
    exact this.resolve_left fun h => by cases h

/-- C145, what holds of creations that have failed: they leave at most one handle, that of the process created, and only if
`GetProcessId` failed. Missing: then it is left (`C145_violated`). Unlike in C139, workers may name handles. -/
theorem C145_failed_partial (debug : Bool) (w w' : WholeWin) (ls : List WholeWinEvent) (h : NoWinWorkers w)
    (he : WholeWinExec debug DeclaredHandle w ls w') (j : Nat) (c : ProcessConfig) (p : Policy) (os : LaunchOs)
    (before : WinWorld) (hm : .made j c p os before ∈ ls) (x : WCreation) (hx : w'.calls j = some x)
    (err : Option BrokerError) (hf : x.phase = .failed err) (n : BitVec 64) (hh : HandleFor j ls n) :
    n = os.hProcess ∧ ∃ k, (os.rounds k).pid = 0 := by
  obtain ⟨y, hy, _, _, h4⟩ := (wholeWin_base h he).made j c p os before hm
  rw [hx] at hy; cases hy
  obtain ⟨y, hy, hcase⟩ := (costWin_exec h he j).held n hh
  rw [hx] at hy; cases hy
  rw [← h4]
  rcases hcase with g | ⟨th, g1, _⟩ | ⟨g, ⟨_, g1⟩ | ⟨q, m, r, g1⟩⟩
  · rw [WCreation.owned, hf] at g; cases g
  · obtain ⟨y, q, h1, h2, _⟩ := (wholeWin_base h he).call j th g1
    rw [hx] at h1; cases h1
    rw [hf] at h2; cases h2
  · exact ⟨g, g1⟩
  · rw [hf] at g1; cases g1

/-! ## Steps -/

/-- Steps that may be left of the request being served. -/
def winStepsLeft (j : Nat) (ls : List WholeWinEvent) : Nat :=
  ls.foldl (fun n l => match l with
    | .recv k _ _ _ => if k = j then 6 else n
    | .serve k _ _ => if k = j then n - 1 else n
    | _ => n) 0

theorem winStepsLeft_snoc (j : Nat) (ls : List WholeWinEvent) (l : WholeWinEvent) :
    winStepsLeft j (ls ++ [l]) = match l with
      | .recv k _ _ _ => if k = j then 6 else winStepsLeft j ls
      | .serve k _ _ => if k = j then winStepsLeft j ls - 1 else winStepsLeft j ls
      | _ => winStepsLeft j ls := by
  simp only [winStepsLeft, List.foldl_append, List.foldl_cons, List.foldl_nil]

theorem winHeardBy_snoc (j : Nat) (ls : List WholeWinEvent) (l : WholeWinEvent) :
    winHeardBy j (ls ++ [l]) = winHeardBy j ls ++ winHeardBy j [l] := by
  simp only [winHeardBy, List.filterMap_append]

theorem winRank_exec {debug : Bool} {w w' : WholeWin} {ls : List WholeWinEvent} (h : NoWinWorkers w)
    (he : WholeWinExec debug DeclaredHandle w ls w') (j : Nat) :
    (∀ th, w'.threads j = some th → th.phase.rank ≤ winStepsLeft j ls) ∧
    (winHeardBy j ls ≠ [] → ∃ th, w'.threads j = some th ∧ th.phase ≠ .greeting) := by
  induction he with
  | start =>
    refine ⟨fun th ht => ?_, fun h => absurd rfl h⟩
    rw [h.threads] at ht
    cases ht
  | call ls w1 k c p os he1 hk hb ih =>
    rw [winStepsLeft_snoc, winHeardBy_snoc]
    simp only [winHeardBy, List.filterMap_cons, List.filterMap_nil, List.append_nil] at ih ⊢
    exact ih
  | go ls w1 k x he1 hk hx ih =>
    rw [winStepsLeft_snoc, winHeardBy_snoc]
    have e0 : winHeardBy j [.step k w1.world (x.go w1.world).1] = [] := rfl
    rw [e0, List.append_nil]
    by_cases e : j = k
    · subst e
      have hnt : w1.threads j = none := by
        cases ht : w1.threads j with
        | none => rfl
        | some th =>
          obtain ⟨y, q, h1, h2, _⟩ := (wholeWin_base h he1).call j th ht
          rw [hk] at h1; cases h1
          rw [h2] at hx; cases hx
      refine ⟨fun th ht => ?_, fun hr => ?_⟩
      · have ht' : x.thread = some th := by simpa [WholeWin.create] using ht
        obtain ⟨m, q, r, _, h2, _⟩ := thread_spawns ht' w1.world
        rw [h2]; exact Nat.zero_le _
      · obtain ⟨th, h1, _⟩ := ih.2 hr
        rw [hnt] at h1; cases h1
    · have e2 : (w1.create k x).threads j = w1.threads j := by simp [WholeWin.create, e]
      rw [e2]; exact ih
  | recv ls w1 k th inc os he1 hk hidle ih =>
    by_cases e : k = j
    · subst e
      have e2 : (w1.received k (th.receive w1.shared inc os)).threads k = some (th.receive w1.shared inc os) := by
        simp [WholeWin.received]
      rw [e2]
      refine ⟨fun th' ht => ?_, fun _ => ⟨_, rfl, by simp [WinLoop.receive]⟩⟩
      cases ht
      rw [winStepsLeft_snoc]
      simp only [if_pos]
      exact Nat.le_refl 6
    · have e2 : (w1.received k (th.receive w1.shared inc os)).threads j = w1.threads j := by
        simp [WholeWin.received, Ne.symm e]
      rw [e2, winStepsLeft_snoc, winHeardBy_snoc]
      have e0 : winHeardBy j [.recv k inc os w1.shared] = [] := by simp [winHeardBy, e]
      rw [e0, List.append_nil]
      simp only [if_neg e]
      exact ih
  | serve ls w1 k th he1 hk hf ih =>
    rw [winStepsLeft_snoc, winHeardBy_snoc]
    have e0 : winHeardBy j [.serve k w1.shared (th.go debug w1.shared).1] = [] := rfl
    rw [e0, List.append_nil]
    by_cases e : k = j
    · subst e
      have e2 : (w1.served k (th.go debug w1.shared)).threads k = some (th.go debug w1.shared).2 := by simp [WholeWin.served]
      rw [e2]
      refine ⟨fun th' ht => ?_, fun hr => ?_⟩
      · cases ht
        have h1 := ih.1 th hk
        have h2 := winRank_go debug w1.shared th
        simp only [if_pos]
        omega
      · obtain ⟨th', h1, h2⟩ := ih.2 hr
        rw [hk] at h1; cases h1
        exact ⟨_, rfl, winGo_greeting debug _ th h2⟩
    · have e2 : (w1.served k (th.go debug w1.shared)).threads j = w1.threads j := by simp [WholeWin.served, Ne.symm e]
      rw [e2]
      simp only [if_neg e]
      exact ih
  | other ls w1 w2 workers he1 ho ht ih => exact ih

theorem winStepsLeft_after (j : Nat) (l1 l2 : List WholeWinEvent) (inc : WinIncoming) (os : WinChoice) (b : WinShared)
    (h : winHeardBy j l2 = []) : winStepsLeft j (l1 ++ .recv j inc os b :: l2) = 6 - winServesOf j l2 := by
  have key : ∀ (l : List WholeWinEvent) n, winHeardBy j l = [] → l.foldl (fun n l => match l with
      | .recv k _ _ _ => if k = j then 6 else n
      | .serve k _ _ => if k = j then n - 1 else n
      | _ => n) n = n - winServesOf j l := by
    intro l
    induction l with
    | nil => intro n _; rfl
    | cons e l ih =>
      intro n hr
      cases e with
      | recv k inc os b =>
        by_cases hk : k = j
        · simp [winHeardBy, hk] at hr
        · simp only [winHeardBy, List.filterMap_cons, if_neg hk] at hr
          simp only [List.foldl_cons, if_neg hk]
          rw [ih n hr]
          simp [winServesOf]
      | serve k b a =>
        have hr' : winHeardBy j l = [] := by simpa [winHeardBy] using hr
        by_cases hk : k = j
        · simp only [List.foldl_cons, if_pos hk]
          rw [ih _ hr']
          simp only [winServesOf, List.filter_cons, hk, beq_self_eq_true, if_true, List.length_cons]
          omega
        · simp only [List.foldl_cons, if_neg hk]
          rw [ih _ hr']
          simp [winServesOf, hk]
      | made k c p os b =>
        have hr' : winHeardBy j l = [] := by simpa [winHeardBy] using hr
        simp only [List.foldl_cons]
        rw [ih _ hr']
        simp [winServesOf]
      | step k b a =>
        have hr' : winHeardBy j l = [] := by simpa [winHeardBy] using hr
        simp only [List.foldl_cons]
        rw [ih _ hr']
        simp [winServesOf]
  unfold winStepsLeft
  rw [List.foldl_append, List.foldl_cons]
  simp only [if_pos]
  exact key l2 6 h

/-- C145. Once the thread serving a worker has received something, six steps of its own are enough to have answered and be
waiting for the next request, or to have ended, whatever the broker does meanwhile. -/
theorem C145_answers (debug : Bool) (w w' : WholeWin) (l1 l2 : List WholeWinEvent) (h : NoWinWorkers w) (j : Nat)
    (inc : WinIncoming) (os : WinChoice) (b : WinShared)
    (he : WholeWinExec debug DeclaredHandle w (l1 ++ .recv j inc os b :: l2) w') (hlast : winHeardBy j l2 = [])
    (h6 : 6 ≤ winServesOf j l2) : ∃ th, w'.threads j = some th ∧ WinAtRest th := by
  obtain ⟨h1, h2⟩ := winRank_exec h he j
  have hr : winHeardBy j (l1 ++ .recv j inc os b :: l2) ≠ [] := by simp [winHeardBy]
  obtain ⟨th, ht, hg⟩ := h2 hr
  refine ⟨th, ht, ?_⟩
  have := h1 th ht
  rw [winStepsLeft_after j l1 l2 inc os b hlast, Nat.sub_eq_zero_of_le h6] at this
  cases hp : th.phase <;> rw [hp] at this hg <;> first
    | exact .inl hp
    | exact .inr hp
    | exact absurd rfl hg
    | (simp [WinLoopPhase.rank] at this; done)

/-! ## Concrete cases -/

/-- A worker has been created and another one is being created; the former names a handle. -/
def costWinDemo (n : Nat) : List WholeWinEvent × WholeWin :=
  (List.replicate 8 (WholeWinTurn.step 0) ++ List.replicate 17 (WholeWinTurn.step 1) ++ [greets 1, .serve 1, .step 0, .serve 1, .step 0,
    asksFor 1 winDemoRead 60 50, .serve 1, .step 0, .serve 1, .step 0, .step 0, .step 0, .serve 1, .serve 1, .serve 1, .serve 1,
    .recv 1 (.message (winDemoBytes winDemoRead (some 4))) ⟨⟨0, 0, 0, 0, 0⟩, none, true⟩, .serve 1, .serve 1, .serve 1, .serve 1,
    .serve 1, .serve 1] |>.take n).foldl (wholeWinTurn false) threeMade

theorem costWinDemo_exec (n : Nat) :
    WholeWinExec false DeclaredHandle noWinWorkers (costWinDemo n).1 (costWinDemo n).2 :=
  wholeWinTurns_exec false noWinWorkers _ _ (threeMade_exec false)

def heldWin (j : Nat) (ls : List WholeWinEvent) : List (BitVec 64) :=
  ((List.range 80).map (BitVec.ofNat 64)).filter (handleFor j ls)

/-- There are four handles for worker 1 while it is created (its pipe, the other end, its process twice) and while it is
given a file, -/
example : heldWin 1 (costWinDemo 23).1 = [28, 32, 36, 40] ∧ heldWin 1 (costWinDemo 37).1 = [28, 36, 40, 60] ∧
    heldWin 0 (costWinDemo 37).1 = [4, 8, 20] ∧ winMadeIn (costWinDemo 37).1 = [0, 1, 2] := by
  decide +kernel

/-- three when it has got it, and one when it has named a handle. -/
example : ((costWinDemo 40).2.threads 1).map (·.phase) = some .idle ∧ heldWin 1 (costWinDemo 40).1 = [28, 36, 40] ∧
    ((costWinDemo 48).2.threads 1).map (·.phase) = some .gone ∧ heldWin 1 (costWinDemo 48).1 = [36] := by
  decide +kernel

/-- After the last message the thread has had six steps: `C145_answers` applies. -/
example : winHeardBy 1 ((costWinDemo 48).1.drop 45) = [] ∧ winServesOf 1 ((costWinDemo 48).1.drop 45) = 6 ∧
    (((costWinDemo 48).1.drop 44).head?.bind fun l => match l with | .recv k _ _ _ => some k | _ => none) = some 1 := by
  decide +kernel

/-- A call whose `GetProcessId` fails, once the others are done. -/
def leakingOs : LaunchOs := { failingOs with rounds := fun _ => { winGoodRound with pid := 0 } }

def leakingMade : List WholeWinEvent × WholeWin :=
  (wholeWinDemo.1 ++ [.made 3 secondConfig .nothingAllowed leakingOs wholeWinDemo.2.world],
   wholeWinDemo.2.made 3 (.make secondConfig .nothingAllowed leakingOs))

def leakingDemo : List WholeWinEvent × WholeWin :=
  (List.replicate 20 (WholeWinTurn.step 3)).foldl (wholeWinTurn false) leakingMade

theorem leakingDemo_exec : WholeWinExec false DeclaredHandle noWinWorkers leakingDemo.1 leakingDemo.2 :=
  wholeWinTurns_exec false noWinWorkers _ _ (.call _ _ 3 secondConfig .nothingAllowed leakingOs
    wholeWinDemo_exec (by decide +kernel) fun h hd => (secondConfig_none (by decide) hd).elim)

/-- It meets the hypotheses of `C145_failed_partial`, and has the handle this theorem allows. -/
example : .made 3 secondConfig .nothingAllowed leakingOs wholeWinDemo.2.world ∈ leakingDemo.1 ∧
    (leakingDemo.2.calls 3).map (fun x => hasFailed x.phase) = some true ∧ heldWin 3 leakingDemo.1 = [leakingOs.hProcess] :=
  ⟨(wholeWinTurns_prefix _ _).subset (List.mem_append_right _ (List.mem_singleton_self _)), by decide +kernel,
    by decide +kernel⟩

/-- C145 is false: a creation fails because `GetProcessId` does, and the handle of the process it has created stays
open. -/
theorem C145_violated : ¬ WinLeavesNothing := by
  intro h
  obtain ⟨ls, w', he, h1, h2⟩ : ∃ ls w', WholeWinExec false DeclaredHandle noWinWorkers ls w' ∧
      (w'.calls 3).map (fun x => hasFailed x.phase) = some true ∧ HandleFor 3 ls 48 := by
    refine ⟨leakingDemo.1, leakingDemo.2, leakingDemo_exec, by decide +kernel, ?_⟩
    rw [← handleFor_iff]
    decide +kernel
  obtain ⟨x, hx, hp⟩ := Option.map_eq_some_iff.1 h1
  cases hq : x.phase with
  | failed err => exact h false _ _ _ 3 x err noWinWorkers_ok he hx hq 48 h2
  | _ => rw [hq] at hp; cases hp

end Iris
