import Verif.Lemmas.Concurrent
import Verif.Props.Broker
/-! # C55: several workers served by one broker

Any number of workers, any interleaving of the steps of their threads, and anything else the
process does to other descriptors in between. -/
namespace Iris
open Spec

/-- C55 on 32-bit targets: what is done for a worker depends only on its policy and on what it
sends, under every interleaving. -/
theorem C55_no_interference_ilp32 [Target] : NoInterference .ilp32 Bounded := by
  intro w w' v v' ls ms i j hw hv ew ev
  have h : ∀ t, Bounded t → Calm .ilp32 0 t := fun t ht => ⟨ht, by simp⟩
  exact no_interference .ilp32 0 w w' v v' ls ms i j hw hv (exec_mono _ _ _ h _ _ _ ew)
    (exec_mono _ _ _ h _ _ _ ev)

/-- C55 on x86_64, what holds: the same as long as the broker's descriptor 0 stays open on the same
file. Missing: brokers whose descriptor 0 is closed (see `C55_violated`). -/
theorem C55_no_interference_partial [Target] (f : Nat) :
    NoInterference .lp64 (fun t => Bounded t ∧ StdinIs f t) := by
  intro w w' v v' ls ms i j hw hv ew ev
  have h : ∀ t, (Bounded t ∧ StdinIs f t) → Calm .lp64 f t := fun t ht => ⟨ht.1, fun _ => ht.2⟩
  exact no_interference .lp64 f w w' v v' ls ms i j hw hv (exec_mono _ _ _ h _ _ _ ew)
    (exec_mono _ _ _ h _ _ _ ev)

/-- C55. A worker served with others gets exactly what it gets alone (32-bit targets). -/
theorem C55_same_as_alone_ilp32 [Target] (w w' : Loops) (ls : List LoopStep) (i : Nat) (hf : Fresh w)
    (he : LoopsExec .ilp32 Bounded w ls w') (hi : (w.threads i).phase = .idle) :
    SameAsAlone .ilp32 w.table (w.threads i) (inputsOf i ls) (w'.threads i) := by
  have h : ∀ t, Bounded t → Calm .ilp32 0 t := fun t ht => ⟨ht, by simp⟩
  have he' := exec_mono _ _ _ h _ _ _ he
  exact tracks_same .ilp32 0 w.table _ _ _ _ (exec_start _ _ _ _ _ he') (exec_const _ _ _ _ _ he' i).1
    (exec_const _ _ _ _ _ he' i).2 (exec_tracks .ilp32 0 w w' ls hf he' i hi)

/-- C55 on x86_64, what holds: the same as long as descriptor 0 stays open on the same file. -/
theorem C55_same_as_alone_partial [Target] (f : Nat) (w w' : Loops) (ls : List LoopStep) (i : Nat)
    (hf : Fresh w) (he : LoopsExec .lp64 (fun t => Bounded t ∧ StdinIs f t) w ls w')
    (hi : (w.threads i).phase = .idle) :
    SameAsAlone .lp64 w.table (w.threads i) (inputsOf i ls) (w'.threads i) := by
  have h : ∀ t, (Bounded t ∧ StdinIs f t) → Calm .lp64 f t := fun t ht => ⟨ht.1, fun _ => ht.2⟩
  have he' := exec_mono _ _ _ h _ _ _ he
  exact tracks_same .lp64 f w.table _ _ _ _ (exec_start _ _ _ _ _ he') (exec_const _ _ _ _ _ he' i).1
    (exec_const _ _ _ _ _ he' i).2 (exec_tracks .lp64 f w w' ls hf he' i hi)

/-- C55. Whatever happens, each thread receives from and sends to the socket of its own worker
only: other threads never close its channel or put another file in its place. -/
theorem C55_own_channel [Target] (abi : Abi) (w w' : Loops) (ls : List LoopStep) (i : Nat) (hf : Fresh w)
    (he : LoopsExec abi (fun _ => True) w ls w') :
    ∀ s ∈ (w'.threads i).sockets, s = (w.table.get (w.threads i).chan).map (·.file) :=
  (exec_sockets abi _ w w' ls hf he i).1

/-- C55. No descriptor is ever used by two threads. -/
theorem C55_descriptors_apart [Target] (abi : Abi) (w w' : Loops) (ls : List LoopStep) (hf : Fresh w)
    (he : LoopsExec abi (fun _ => True) w ls w') (j k : Nat) (hjk : j ≠ k) (fd : Nat)
    (h : fd ∈ (w'.threads j).owned) : fd ∉ (w'.threads k).owned ∧ (w'.table.get fd).isSome :=
  ⟨(exec_inv abi _ w w' ls (inv_fresh w hf) he).apart j k hjk fd h,
   Option.isSome_iff_ne_none.2 ((exec_inv abi _ w w' ls (inv_fresh w hf) he).present j fd h)⟩

/-! ## Two workers -/

/-- Threads 0 and 1 serve a worker each, on descriptors 3 and 4. -/
def twoWorkers (t : FdTable) : Loops where
  table := (3, ⟨1003, 1#32⟩) :: (4, ⟨1004, 1#32⟩) :: t
  threads := fun j =>
    if j = 0 then ⟨tmpPolicy, 3, .idle, [], []⟩
    else if j = 1 then ⟨tmpPolicy, 4, .idle, [], []⟩
    else ⟨tmpPolicy, 9, .gone .ended, [], []⟩

theorem twoWorkers_fresh (t : FdTable) : Fresh (twoWorkers t) := by
  refine ⟨?_, ?_, ?_, ?_, ?_⟩
  · intro j
    simp only [twoWorkers]
    split
    · exact .inl rfl
    split
    · exact .inl rfl
    · exact .inr ⟨_, rfl⟩
  · intro j
    simp only [twoWorkers]
    split
    · rfl
    split <;> rfl
  · intro j
    simp only [twoWorkers]
    split
    · rfl
    split <;> rfl
  · intro j h
    simp only [twoWorkers] at h ⊢
    split
    · rfl
    split
    · rfl
    · rename_i h0 h1
      rw [if_neg h0, if_neg h1] at h
      cases h
  · intro j k hj hk hjk
    by_cases j0 : j = 0 <;> by_cases j1 : j = 1 <;> by_cases k0 : k = 0 <;> by_cases k1 : k = 1 <;>
      simp_all [twoWorkers]

/-- `open("/tmp/a", O_RDONLY)`, which gives this open file. -/
def asksTmp (j file : Nat) : LoopStep :=
  .recv j (.datagram ⟨encRequest (.openFile c!"/tmp/a" 0#32), []⟩) ⟨2, .ok file, none⟩

/-- Worker 0's file is opened before worker 1's request is served, and closed after. -/
def interleaved : List LoopStep :=
  [asksTmp 0 100, .go 0, .go 0, asksTmp 1 200, .go 1, .go 1, .go 1, .go 1, .go 0, .go 0]

/-- The same for worker 1, alone. -/
def afterwards : List LoopStep :=
  [asksTmp 1 200, .go 1, .go 1, .go 1, .go 1]

/-- Few descriptors. -/
def few (t : FdTable) : Bool := decide (t.length < 2 ^ 31)

theorem exec_few (abi : Abi) (ls : List LoopStep) (w : Loops) (h : @possible x86_64 abi few w ls = true) :
    @LoopsExec x86_64 abi Bounded w ls (ls.foldl (@Loops.act x86_64 abi) w) :=
  @exec_mono x86_64 abi _ _ (fun t h => by simpa [few, Bounded] using h) _ _ _ (@exec_possible x86_64 abi few ls w h)

/-- The hypotheses are met: two workers' requests interleaved on x86_64, descriptor 0 open. Each
gets its own file. -/
example : @LoopsExec x86_64 .lp64 (fun t => Bounded t ∧ StdinIs 1 t) (twoWorkers [(0, ⟨1, 0#32⟩)]) interleaved
      (interleaved.foldl (@Loops.act x86_64 .lp64) (twoWorkers [(0, ⟨1, 0#32⟩)])) :=
  @exec_mono x86_64 .lp64 _ _ (fun t h => by
      simpa only [few, Bounded, StdinIs, Bool.and_eq_true, decide_eq_true_eq] using h) _ _ _
    (@exec_possible x86_64 .lp64 (fun t => few t && decide ((t.get 0).map (·.file) = some 1)) interleaved
      (twoWorkers [(0, ⟨1, 0#32⟩)]) (by decide +kernel))

example :
    ((interleaved.foldl (@Loops.act x86_64 .lp64) (twoWorkers [(0, ⟨1, 0#32⟩)])).threads 0).trace =
      [.opened c!"/tmp/a" 0#32 0x180#32, .sent (.syscallResult 0#64) [100, 1]] ∧
    ((interleaved.foldl (@Loops.act x86_64 .lp64) (twoWorkers [(0, ⟨1, 0#32⟩)])).threads 1).trace =
      [.opened c!"/tmp/a" 0#32 0x180#32, .sent (.syscallResult 0#64) [200, 1]] := by decide +kernel

example : @LoopsExec x86_64 .ilp32 Bounded (twoWorkers []) interleaved
    (interleaved.foldl (@Loops.act x86_64 .ilp32) (twoWorkers [])) :=
  exec_few .ilp32 interleaved (twoWorkers []) (by decide +kernel)

/-- C55 is false on x86_64 of a broker whose descriptor 0 is closed: the file opened for worker 0 is
put at descriptor 0, and a reply to worker 1 carries it too. -/
theorem C55_violated : ¬ @NoInterference x86_64 .lp64 Bounded := by
  intro h
  have e1 := exec_few .lp64 interleaved (twoWorkers []) (by decide +kernel)
  have e2 := exec_few .lp64 afterwards (twoWorkers []) (by decide +kernel)
  have := h _ _ _ _ _ _ 1 1 (twoWorkers_fresh []) (twoWorkers_fresh []) e1 e2 rfl rfl rfl rfl
    (.inl (LoopPhase.of_isIdle _ (by decide +kernel))) (.inl (LoopPhase.of_isIdle _ (by decide +kernel)))
  revert this
  decide +kernel

/-- C55. What leaks in that execution: a reply to worker 1 carries file 100, which was opened for
worker 0 and for no request of worker 1. -/
theorem C55_violated_leak : ∃ (w w' : Loops) (ls : List LoopStep), Fresh w ∧
    @LoopsExec x86_64 .lp64 Bounded w ls w' ∧
    Action.sent (.syscallResult 0#64) [200, 100] ∈ (w'.threads 1).trace ∧
    ∀ x ∈ inputsOf 1 ls, x.2.openResult ≠ .ok 100 :=
  ⟨_, _, interleaved, twoWorkers_fresh [],
   exec_few .lp64 interleaved (twoWorkers []) (by decide +kernel), by decide +kernel,
   by decide +kernel⟩

end Iris
