import Verif.Spec.WholeWin
import Verif.Props.WinLoops
import Verif.Props.WinCreators
/-! Helper lemmas about a whole broker process on Windows. -/
namespace Iris
open Spec

local notation:max w "⟪" h "⟫" => HTable.get (PipeWorld.handles (WinWorld.pw w)) h

/-- What concerns creations. -/
def createEvents (ls : List WholeWinEvent) : List WinCreateEvent :=
  ls.filterMap fun
    | .made j c p os b => some (.made j c p os b)
    | .step j b a => some (.step j b a)
    | _ => none

/-- What concerns the thread of worker `j`. -/
def threadEvents (j : Nat) (ls : List WholeWinEvent) : List WinLoopEvent :=
  ls.filterMap fun
    | .recv k inc os s => if k = j then some (.recv k inc os s) else none
    | .serve k b a => if k = j then some (.step k b a) else none
    | _ => none

theorem createEvents_append (a b : List WholeWinEvent) : createEvents (a ++ b) = createEvents a ++ createEvents b :=
  List.filterMap_append

theorem threadEvents_append (j : Nat) (a b : List WholeWinEvent) :
    threadEvents j (a ++ b) = threadEvents j a ++ threadEvents j b :=
  List.filterMap_append

/-- The process as seen by one thread. -/
def oneWin (s : WinShared) (j : Nat) (th : WinLoop) : WinLoops := ⟨s, fun k => if k = j then some th else none⟩

theorem oneWin_put (s : WinShared) (j : Nat) (th : WinLoop) (x : WinShared × WinLoop) :
    (oneWin s j th).put j x = oneWin x.1 j x.2 := by
  unfold oneWin WinLoops.put
  congr 1
  funext k
  by_cases h : k = j <;> simp [h]

/-! ### One system call of a thread, seen from the rest of the process -/

/-- The table after a system call of a thread: the same, with one more handle, or with one closed. -/
theorem winLoop_table (debug : Bool) (s : WinShared) (th : WinLoop) :
    (th.go debug s).1.broker = s.broker ∨
    (∃ h o, s.broker.get h = none ∧ (th.go debug s).1.broker = (h, o) :: s.broker ∧ h ∈ (th.go debug s).2.owned) ∨
    ∃ h, (th.go debug s).1.broker = s.broker.close h := by
  unfold WinLoop.go
  split
  · exact .inl rfl
  · exact .inl rfl
  · exact .inl rfl
  · split
    · split
      · split <;> exact .inl rfl
      · rename_i r _ _
        split
        · exact .inl rfl
        · rename_i x hx
          rcases (winServe_handle debug th.policy s.broker _ r x hx).2 with ⟨_, ht⟩ | ⟨k, o, he, hk, ht⟩
          · exact .inl (by rw [ht])
          · exact .inr (.inl ⟨k, o, hk, by rw [ht], by simp [WinLoop.owned, he]⟩)
    · exact .inl rfl
    · exact .inl rfl
    · exact .inl rfl
  · split
    · exact .inl rfl
    · split <;> exact .inl rfl
  · split
    · split <;> exact .inl rfl
    · exact .inl rfl
  · exact .inr (.inr ⟨_, rfl⟩)
  · exact .inr (.inr ⟨_, rfl⟩)
  · exact .inr (.inr ⟨_, rfl⟩)

theorem foldl_max_le (t : HTable) (n : Nat) : n ≤ t.foldl (fun n e => max n (e.2 + 1)) n ∧
    ∀ e ∈ t, e.2 < t.foldl (fun n e => max n (e.2 + 1)) n := by
  induction t generalizing n with
  | nil => exact ⟨Nat.le_refl _, by simp⟩
  | cons a t ih =>
    obtain ⟨h1, h2⟩ := ih (max n (a.2 + 1))
    refine ⟨by simp only [List.foldl_cons]; omega, fun e he => ?_⟩
    rcases List.mem_cons.1 he with rfl | he
    · simp only [List.foldl_cons]; omega
    · exact h2 e he

theorem HTable.get_of_mem {t : HTable} {e : BitVec 64 × Nat} (he : e ∈ t) : t.get e.1 ≠ none := by
  intro hn
  exact HTable.get_none hn e he rfl

theorem HTable.get_of_nodup {t : HTable} (hn : (t.map (·.1)).Nodup) {e : BitVec 64 × Nat} (he : e ∈ t) :
    t.get e.1 = some e.2 := by
  induction t with
  | nil => cases he
  | cons a t ih =>
    rw [List.map_cons, List.nodup_cons] at hn
    rw [HTable.get_cons_if]
    rcases List.mem_cons.1 he with rfl | he
    · rw [if_pos rfl]
    · rw [if_neg, ih hn.2 he]
      intro h
      rw [← h] at hn
      exact hn.1 (List.mem_map_of_mem he)

/-- A system call of a thread is, for the creations in progress, something others do. -/
theorem withHandles_other {w : WinWorld} {t : HTable} {o : List (BitVec 64)} {mine borrowed : BitVec 64 → Prop} (hw : WinWf w)
    (hs : t = w.pw.handles ∨ (∃ h o, w⟪h⟫ = none ∧ t = (h, o) :: w.pw.handles) ∨ ∃ h, t = w.pw.handles.close h)
    (ho : ∀ h, h ∉ o → w⟪h⟫ ≠ none → t.get h = w⟪h⟫)
    (hf : ∀ h x, w⟪h⟫ = none → t.get h = some x → w.pw.next ≤ x ∧ ∀ i ∈ w.pw.pipes, i.client ≠ some x)
    (hm : ∀ h, mine h → w⟪h⟫ ≠ none ∧ ∀ k, w⟪k⟫ = w⟪h⟫ → k ∉ o) (hb : ∀ h, borrowed h → h ∉ o ∧ w⟪h⟫ ≠ none) :
    WinOther mine borrowed w (w.withHandles t) := by
  have keep : ∀ h, w⟪h⟫ ≠ none → t.get h = w⟪h⟫ ∨ t.get h = none := by
    intro h hh
    rcases hs with rfl | ⟨k, x, hk, rfl⟩ | ⟨k, rfl⟩
    · exact .inl rfl
    · rw [HTable.get_cons_if, if_neg (by rintro rfl; exact hh hk)]; exact .inl rfl
    · rw [HTable.get_close_if]; split
      · exact .inr rfl
      · exact .inl rfl
  have same : ∀ h, h ∉ o → w⟪h⟫ ≠ none → SameHandle w (w.withHandles t) h := by
    intro h h1 h2
    refine ⟨ho h h1 h2, ?_⟩
    simp only [WinWorld.withHandles, List.mem_filter, ho h h1 h2, Option.isSome_iff_ne_none, ne_eq]
    exact ⟨fun a => a.1, fun a => ⟨a, h2⟩⟩
  refine ⟨?_, ?_, (foldl_max_le t _).1, ?_, ?_, ?_, Nat.le_refl _, ?_, ?_, ?_, ?_⟩
  · show (t.map (·.1)).Nodup
    rcases hs with rfl | ⟨k, x, hk, rfl⟩ | ⟨k, rfl⟩
    · exact hw.keys
    · rw [List.map_cons, List.nodup_cons]
      refine ⟨fun hc => ?_, hw.keys⟩
      obtain ⟨e, he, hek⟩ := List.mem_map.1 hc
      exact HTable.get_none hk e he hek
    · exact (List.filter_sublist.map _).nodup hw.keys
  · intro h hh
    simp only [WinWorld.withHandles, List.mem_filter, Option.isSome_iff_ne_none] at hh
    exact hh.2
  · intro h x hx
    exact (foldl_max_le t w.pw.next).2 _ (HTable.get_mem hx)
  · intro i hi
    have := hw.servers i (List.mem_filter.1 hi).1
    exact Nat.lt_of_lt_of_le this (foldl_max_le t _).1
  · exact (List.filter_sublist.map _).nodup hw.single
  · rintro h (hh | hh)
    · exact same h ((hm h hh).2 h rfl) (hm h hh).1
    · exact same h (hb h hh).1 (hb h hh).2
  · intro h hh k hk
    by_cases hk' : w⟪k⟫ = none
    · obtain ⟨x, hx⟩ := Option.ne_none_iff_exists'.1 (hm h hh).1
      rw [hx] at hk
      have := (hf k x hk' hk).1
      have := hw.objects h x hx
      omega
    · rcases keep k hk' with h1 | h1
      · exact h1.symm.trans hk
      · exact absurd (h1.symm.trans hk).symm (hm h hh).1
  · intro h hh i hi _ y hy k hk
    by_cases hk' : w⟪k⟫ = none
    · exact absurd hy ((hf k y hk' hk).2 i hi)
    · rcases keep k hk' with h1 | h1
      · exact h1.symm.trans hk
      · exact absurd (h1.symm.trans hk) (by simp)
  · intro h hh i hi hs' hsole i' hi'
    refine ⟨fun a => (List.mem_filter.1 a).1, fun a => List.mem_filter.2 ⟨a, ?_⟩⟩
    rw [hsole i' a hi']
    refine List.all_eq_true.2 fun e he => ?_
    by_cases heq : e.2 = i.server
    · have h1 : w⟪e.1⟫ = w⟪h⟫ := by rw [HTable.get_of_nodup hw.keys he, heq, hs']
      have h2 := ho e.1 ((hm h hh).2 e.1 h1) (HTable.get_of_mem he)
      simp [h2, h1, hs']
    · simp [heq]

/-! ### Creation and service -/

/-- How worker `j` was born: its process, and the pipe to it. -/
def WinBorn (j : Nat) (ls : List WholeWinEvent) (x : WCreation) (po qo : Nat) : Prop :=
  ∃ ch theirs, x.child = some ch ∧
    ch.environment = envBlock (mergeEnv x.os.sys (x.config.envp ++ [ipcHandleVar theirs.toNat])) ∧ qo = ch.object ∧
    ∃ b a, .step j b a ∈ ls ∧ ∃ i ∈ a.pw.pipes, ∃ c, i.server = po ∧ i.client = some c ∧ ch.handles.get theirs = some c

theorem WinBorn.more {j : Nat} {ls : List WholeWinEvent} {x : WCreation} {po qo : Nat} (h : WinBorn j ls x po qo)
    (l : List WholeWinEvent) : WinBorn j (ls ++ l) x po qo := by
  obtain ⟨ch, theirs, h1, h2, h3, b, a, h4, h5⟩ := h
  exact ⟨ch, theirs, h1, h2, h3, b, a, List.mem_append_left _ h4, h5⟩

/-- What is true of an execution. `ob j` is the pipe and the process of worker `j`. -/
structure WholeWinInv (debug : Bool) (w0 : WholeWin) (ls : List WholeWinEvent) (w : WholeWin) (ob : Nat → Nat × Nat) :
    Prop where
  created : WinCreatorsExec DeclaredHandle ⟨w0.world, w0.calls⟩ (createEvents ls) ⟨w.world, w.calls⟩
  run : ∀ j th, w.threads j = some th → ∃ x q mine remote l0, w.calls j = some x ∧ x.phase = .served q mine remote ∧
    (∀ k, l0.threads k = none) ∧
    WinLoopsExec debug l0 ([.spawned j x.policy.runtime mine remote (ob j).1 (ob j).2] ++ threadEvents j ls)
      (oneWin w.shared j th) ∧
    WinBorn j ls x (ob j).1 (ob j).2
  thread : ∀ j x q mine remote, w.calls j = some x → x.phase = .served q mine remote → ∃ th, w.threads j = some th
  silent : ∀ j, w.threads j = none → threadEvents j ls = []
  apart : ∀ j k th th', j ≠ k → w.threads j = some th → w.threads k = some th' → ∀ h ∈ th.owned, h ∉ th'.owned
  calls : ∀ j k th x, w.threads j = some th → w.calls k = some x → ∀ h ∈ th.owned, h ∉ x.owned
  lent : ∀ j k th x, w.threads j = some th → w.calls k = some x → x.phase.over = false →
    ∀ h, DeclaredHandle x.policy x.config h → h ∉ th.owned
  old : ∀ j th, w.threads j = some th → (ob j).1 < w.world.pw.next ∧ (ob j).2 < w.world.pw.next
  free : ∀ j k th x, w.threads j = some th → w.calls k = some x → ∀ h ∈ x.owned,
    w.world⟪h⟫ ≠ some (ob j).1 ∧ w.world⟪h⟫ ≠ some (ob j).2
  distinct : ∀ j k th th', j ≠ k → w.threads j = some th → w.threads k = some th' →
    (ob j).1 ≠ (ob k).1 ∧ (ob j).2 ≠ (ob k).2
  holds : ∀ j th, w.threads j = some th → ∀ h ∈ th.owned, HandleFor j ls h
  only : ∀ j th x, w.threads j = some th → w.calls j = some x → ∀ h, HandleFor j ls h → h ∈ th.owned ∨ h = x.os.hProcess
  steps : ∀ l1 l l2 j b a, ls = l1 ++ l :: l2 → WinStepOf j l b a → ∀ h, b.get h ≠ none → a.get h ≠ b.get h →
    HandleFor j l1 h

theorem mem_threadEvents {j : Nat} {ls : List WholeWinEvent} {e : WinLoopEvent} (h : e ∈ threadEvents j ls) :
    (∃ inc os s, e = .recv j inc os s ∧ .recv j inc os s ∈ ls) ∨ ∃ b a, e = .step j b a ∧ .serve j b a ∈ ls := by
  obtain ⟨l, hl, he⟩ := List.mem_filterMap.1 h
  cases l with
  | made => cases he
  | step => cases he
  | recv k inc os s =>
    simp only at he
    split at he
    · rename_i hk; subst hk; cases he; exact .inl ⟨inc, os, s, rfl, hl⟩
    · cases he
  | serve k b a =>
    simp only at he
    split at he
    · rename_i hk; subst hk; cases he; exact .inr ⟨b, a, rfl, hl⟩
    · cases he

theorem Spec.NoneNamed.thread {ls : List WholeWinEvent} (hn : NoneNamed ls) (j : Nat) (p : Policy) (a b : BitVec 64) (po qo : Nat) :
    NoHandleNamed ([.spawned j p a b po qo] ++ threadEvents j ls) := by
  intro k inc os s hm
  rcases List.mem_append.1 hm with hm | hm
  · rw [List.mem_singleton] at hm; cases hm
  · rcases mem_threadEvents hm with ⟨inc', os', s', he, hm⟩ | ⟨b, a, he, _⟩
    · cases he; exact hn _ _ _ _ hm
    · cases he

theorem Spec.NoneNamed.left {l1 l2 : List WholeWinEvent} (h : NoneNamed (l1 ++ l2)) : NoneNamed l1 :=
  fun j inc os s hm => h j inc os s (List.mem_append_left _ hm)

/-- What the thread of worker `j` knows. -/
theorem WholeWinInv.tied {debug : Bool} {w0 w : WholeWin} {ls : List WholeWinEvent} {ob : Nat → Nat × Nat}
    (hi : WholeWinInv debug w0 ls w ob) (hn : NoneNamed ls) {j : Nat} {th : WinLoop} (ht : w.threads j = some th) :
    ∃ x q mine remote, w.calls j = some x ∧ x.phase = .served q mine remote ∧ WinBorn j ls x (ob j).1 (ob j).2 ∧
      WinTied debug ([.spawned j x.policy.runtime mine remote (ob j).1 (ob j).2] ++ threadEvents j ls) w.shared j
        x.policy.runtime mine remote (ob j).1 (ob j).2 th := by
  obtain ⟨x, q, mine, remote, l0, h1, h2, h3, h4, h5⟩ := hi.run j th ht
  obtain ⟨th', h6, h7⟩ := (winLoops_inv debug h3 h4 (hn.thread j _ _ _ _ _)).thread j _ _ _ _ _ (List.mem_cons_self ..)
  simp only [oneWin, if_true, Option.some.injEq] at h6
  subst h6
  exact ⟨x, q, mine, remote, h1, h2, h5, h7⟩

/-- The handles of the thread of worker `j` are open. -/
theorem WholeWinInv.present {debug : Bool} {w0 w : WholeWin} {ls : List WholeWinEvent} {ob : Nat → Nat × Nat}
    (hi : WholeWinInv debug w0 ls w ob) (hn : NoneNamed ls) {j : Nat} {th : WinLoop} (ht : w.threads j = some th) {h : BitVec 64} (hm : h ∈ th.owned) :
    w.world⟪h⟫ ≠ none := by
  obtain ⟨x, q, mine, remote, _, _, _, h7⟩ := hi.tied hn ht
  exact h7.holds.open hm

theorem handleFor_made (j k : Nat) (ls : List WholeWinEvent) (c p os b h) :
    HandleFor j (ls ++ [.made k c p os b]) h ↔ HandleFor j ls h := by
  simp [HandleFor, List.foldl_append]

theorem handleFor_recv (j k : Nat) (ls : List WholeWinEvent) (inc os s h) :
    HandleFor j (ls ++ [.recv k inc os s]) h ↔ HandleFor j ls h := by
  simp [HandleFor, List.foldl_append]

theorem handleFor_step (j k : Nat) (ls : List WholeWinEvent) (b a : WinWorld) (h : BitVec 64) :
    HandleFor j (ls ++ [.step k b a]) h ↔ if k = j then a⟪h⟫ ≠ none ∧ (HandleFor j ls h ∨ b⟪h⟫ = none) else HandleFor j ls h := by
  simp only [HandleFor, List.foldl_append, List.foldl_cons, List.foldl_nil]
  by_cases hk : k = j <;> simp [hk]

theorem handleFor_serve (j k : Nat) (ls : List WholeWinEvent) (b a : WinShared) (h : BitVec 64) :
    HandleFor j (ls ++ [.serve k b a]) h ↔
      if k = j then a.broker.get h ≠ none ∧ (HandleFor j ls h ∨ b.broker.get h = none) else HandleFor j ls h := by
  simp only [HandleFor, List.foldl_append, List.foldl_cons, List.foldl_nil]
  by_cases hk : k = j <;> simp [hk]

/-- As long as the thread has done nothing, the handles are those of the creation. -/
theorem handleFor_created (j : Nat) (ls : List WholeWinEvent) (hs : threadEvents j ls = []) (h : BitVec 64) :
    HandleFor j ls h ↔ HoldsHandle j (createEvents ls) h := by
  generalize hl : ls.length = n
  induction n generalizing ls with
  | zero => rw [List.length_eq_zero_iff.1 hl]; exact Iff.rfl
  | succ n ih =>
    obtain rfl | ⟨ls, e, rfl⟩ := List.eq_nil_or_concat ls
    · cases hl
    rw [List.concat_eq_append] at hs hl ⊢
    rw [threadEvents_append, List.append_eq_nil_iff] at hs
    rw [List.length_append, List.length_singleton, Nat.add_right_cancel_iff] at hl
    have ih := ih ls hs.1 hl
    rw [createEvents_append]
    cases e with
    | made k c p os b => rw [handleFor_made, ih]; exact (wholds_made j k _ c p os b h).symm
    | recv k inc os s => rw [handleFor_recv, ih]; simp [createEvents]
    | step k b a =>
      rw [handleFor_step]
      refine Iff.trans ?_ (wholds_step j k _ b a h).symm
      split
      · rw [ih]
      · exact ih
    | serve k b a =>
      have hk : k ≠ j := by
        rintro rfl
        simp [threadEvents] at hs
      rw [handleFor_serve, if_neg hk, ih]
      simp [createEvents]

theorem thread_spawns {x : WCreation} {th : WinLoop} (h : x.thread = some th) (w : WinWorld) :
    ∃ mine q remote, x.phase = .spawning mine q remote ∧ th = ⟨x.policy.runtime, mine, remote, .greeting, [], []⟩ ∧
      x.go w = (w, x.at (.served q mine remote)) := by
  unfold WCreation.thread at h
  split at h
  · rename_i mine q remote hp
    split at h
    · rename_i hs
      cases h
      refine ⟨mine, q, remote, hp, rfl, ?_⟩
      simp [WCreation.go, hp, hs]
    · cases h
  · cases h

theorem spawns_thread {x : WCreation} {w : WinWorld} (hx : x.phase.over = false) {q : WinProcess} {mine remote : BitVec 64}
    (h : (x.go w).2.phase = .served q mine remote) :
    x.thread = some ⟨x.policy.runtime, mine, remote, .greeting, [], []⟩ := by
  obtain ⟨hp, hg⟩ := wgo_served hx h
  unfold WCreation.thread
  rw [hp]
  simp only [WCreation.go, hp] at hg
  split at hg
  · rename_i hs; simp [hs]
  · exfalso
    have := congrArg (fun y => y.2.phase) hg
    simp [WCreation.at, WPhase.fail] at this

theorem winSnoc {ls l1 l2 : List WholeWinEvent} {ev ev' : WholeWinEvent}
    (h : ls ++ [ev] = l1 ++ ev' :: l2) : (l1 = ls ∧ ev' = ev) ∨ ∃ l3, ls = l1 ++ ev' :: l3 := by
  rcases List.eq_nil_or_concat l2 with rfl | ⟨l3, z, rfl⟩
  · left
    have := List.append_inj' (s₁ := ls) (s₂ := l1) h rfl
    exact ⟨this.1.symm, by simpa using this.2.symm⟩
  · right
    refine ⟨l3, ?_⟩
    have h' : ls ++ [ev] = (l1 ++ ev' :: l3) ++ [z] := by simpa using h
    exact (List.append_inj' h' rfl).1

theorem oneWin_other {debug : Bool} {l0 : WinLoops} {evs : List WinLoopEvent} {s s' : WinShared} {j : Nat} {th : WinLoop}
    (h : WinLoopsExec debug l0 evs (oneWin s j th))
    (hk : ∀ h ∈ th.owned, s.broker.get h ≠ none → s'.broker.get h = s.broker.get h) :
    WinLoopsExec debug l0 evs (oneWin s' j th) := by
  refine .other _ (oneWin s j th) s' h fun k th' ht => ?_
  simp only [oneWin] at ht
  split at ht
  · cases ht; exact hk
  · cases ht

theorem receive_owned (th : WinLoop) (s : WinShared) (inc : WinIncoming) (os : WinChoice)
    (hp : th.phase = .greeting ∨ th.phase = .idle) : (th.receive s inc os).owned = th.owned := by
  rcases hp with hp | hp <;> simp [WinLoop.receive, WinLoop.owned, hp]

section steps
variable {debug : Bool} {w0 w : WholeWin} {ls : List WholeWinEvent} {ob : Nat → Nat × Nat}

theorem wholeInv_call (hi : WholeWinInv debug w0 ls w ob) {j : Nat} {c : ProcessConfig} {p : Policy} {os : LaunchOs}
    (hj : w.calls j = none) (hb : ∀ h, DeclaredHandle p c h → w.world⟪h⟫ ≠ none ∧ (∀ k x, w.calls k = some x → h ∉ x.owned) ∧
      ∀ k th, w.threads k = some th → h ∉ th.owned) :
    WholeWinInv debug w0 (ls ++ [.made j c p os w.world]) (w.made j (.make c p os)) ob := by
  have get : ∀ k x, (w.made j (.make c p os)).calls k = some x → (k = j ∧ x = .make c p os) ∨ (k ≠ j ∧ w.calls k = some x) := by
    intro k x h
    simp only [WholeWin.made] at h
    split at h
    · rename_i e; cases h; exact .inl ⟨e, rfl⟩
    · rename_i e; exact .inr ⟨e, h⟩
  have mown : (WCreation.make c p os).owned = [] := rfl
  have te : ∀ k, threadEvents k (ls ++ [.made j c p os w.world]) = threadEvents k ls := by
    intro k; rw [threadEvents_append]; simp [threadEvents]
  refine ⟨?_, ?_, ?_, ?_, hi.apart, ?_, ?_, hi.old, ?_, hi.distinct, ?_, ?_, ?_⟩
  · rw [createEvents_append]
    exact .call _ _ j c p os hi.created hj fun h hh => ⟨(hb h hh).1, (hb h hh).2.1⟩
  · intro k th ht
    obtain ⟨x, q, mine, remote, l0, h1, h2, h3, h4, h5⟩ := hi.run k th ht
    have hk : k ≠ j := by rintro rfl; rw [hj] at h1; cases h1
    refine ⟨x, q, mine, remote, l0, by simp [WholeWin.made, hk, h1], h2, h3, by rw [te]; exact h4, h5.more _⟩
  · intro k x q mine remote hx hp
    rcases get k x hx with ⟨_, rfl⟩ | ⟨_, hx⟩
    · cases hp
    · exact hi.thread k x q mine remote hx hp
  · intro k hk; rw [te]; exact hi.silent k hk
  · intro k l th x ht hx h hh
    rcases get l x hx with ⟨_, rfl⟩ | ⟨_, hx⟩
    · rw [mown]; simp
    · exact hi.calls k l th x ht hx h hh
  · intro k l th x ht hx ho h hh
    rcases get l x hx with ⟨_, rfl⟩ | ⟨_, hx⟩
    · exact (hb h hh).2.2 k th ht
    · exact hi.lent k l th x ht hx ho h hh
  · intro k l th x ht hx h hh
    rcases get l x hx with ⟨_, rfl⟩ | ⟨_, hx⟩
    · rw [mown] at hh; cases hh
    · exact hi.free k l th x ht hx h hh
  · intro k th ht h hh
    rw [handleFor_made]; exact hi.holds k th ht h hh
  · intro k th x ht hx h hh
    rw [handleFor_made] at hh
    rcases get k x hx with ⟨rfl, rfl⟩ | ⟨_, hx⟩
    · obtain ⟨x, _, _, _, _, h1, _⟩ := hi.run k th ht
      rw [hj] at h1; cases h1
    · exact hi.only k th x ht hx h hh
  · intro l1 l l2 k b a he hs
    rcases winSnoc he with ⟨_, rfl⟩ | ⟨l3, he⟩
    · rcases hs with ⟨_, _, h, _⟩ | ⟨_, _, h, _⟩ <;> cases h
    · exact hi.steps l1 l l3 k b a he hs

theorem wholeInv_recv (hi : WholeWinInv debug w0 ls w ob) {j : Nat} {th : WinLoop} (hj : w.threads j = some th)
    (hp : th.phase = .greeting ∨ th.phase = .idle) (inc : WinIncoming) (os : WinChoice) :
    WholeWinInv debug w0 (ls ++ [.recv j inc os w.shared]) (w.received j (th.receive w.shared inc os)) ob := by
  have get : ∀ k y, (w.received j (th.receive w.shared inc os)).threads k = some y →
      (k = j ∧ y = th.receive w.shared inc os) ∨ (k ≠ j ∧ w.threads k = some y) := by
    intro k x h
    simp only [WholeWin.received] at h
    split at h
    · rename_i e; cases h; exact .inl ⟨e, rfl⟩
    · rename_i e; exact .inr ⟨e, h⟩
  have back : ∀ k y, (w.received j (th.receive w.shared inc os)).threads k = some y →
      ∃ y', w.threads k = some y' ∧ y.owned = y'.owned := by
    intro k y h
    rcases get k y h with ⟨rfl, rfl⟩ | ⟨_, h⟩
    · exact ⟨th, hj, receive_owned th _ inc os hp⟩
    · exact ⟨y, h, rfl⟩
  refine ⟨?_, ?_, ?_, ?_, ?_, ?_, ?_, ?_, ?_, ?_, ?_, ?_, ?_⟩
  · rw [createEvents_append]
    simpa [createEvents, WholeWin.received] using hi.created
  · intro k y ht
    rcases get k y ht with ⟨rfl, rfl⟩ | ⟨hk, ht⟩
    · obtain ⟨x, q, mine, remote, l0, h1, h2, h3, h4, h5⟩ := hi.run k th hj
      refine ⟨x, q, mine, remote, l0, h1, h2, h3, ?_, h5.more _⟩
      have := WinLoopsExec.recv _ (oneWin w.shared k th) k th inc os h4 (by simp [oneWin]) hp
      rw [oneWin_put] at this
      rw [threadEvents_append, ← List.append_assoc]
      simpa [threadEvents, oneWin, WholeWin.shared, WholeWin.received] using this
    · obtain ⟨x, q, mine, remote, l0, h1, h2, h3, h4, h5⟩ := hi.run k y ht
      refine ⟨x, q, mine, remote, l0, h1, h2, h3, ?_, h5.more _⟩
      rw [threadEvents_append]
      have : threadEvents k [.recv j inc os w.shared] = [] := by simp [threadEvents, Ne.symm hk]
      rw [this, List.append_nil]
      exact h4
  · intro k x q mine remote hx hph
    obtain ⟨y, hy⟩ := hi.thread k x q mine remote hx hph
    simp only [WholeWin.received]
    split
    · exact ⟨_, rfl⟩
    · exact ⟨y, hy⟩
  · intro k hk
    simp only [WholeWin.received] at hk
    split at hk
    · cases hk
    · rename_i e
      rw [threadEvents_append, hi.silent k hk]
      simp [threadEvents, Ne.symm e]
  · intro a b y z hab hy hz
    obtain ⟨y', hy', e1⟩ := back a y hy
    obtain ⟨z', hz', e2⟩ := back b z hz
    rw [e1, e2]; exact hi.apart a b y' z' hab hy' hz'
  · intro a b y x hy hx
    obtain ⟨y', hy', e1⟩ := back a y hy
    rw [e1]; exact hi.calls a b y' x hy' hx
  · intro a b y x hy hx
    obtain ⟨y', hy', e1⟩ := back a y hy
    rw [e1]; exact hi.lent a b y' x hy' hx
  · intro a y hy
    obtain ⟨y', hy', e1⟩ := back a y hy
    exact hi.old a y' hy'
  · intro a b y x hy hx
    obtain ⟨y', hy', e1⟩ := back a y hy
    exact hi.free a b y' x hy' hx
  · intro a b y z hab hy hz
    obtain ⟨y', hy', e1⟩ := back a y hy
    obtain ⟨z', hz', e2⟩ := back b z hz
    exact hi.distinct a b y' z' hab hy' hz'
  · intro a y hy h hh
    obtain ⟨y', hy', e1⟩ := back a y hy
    rw [e1] at hh
    rw [handleFor_recv]; exact hi.holds a y' hy' h hh
  · intro a y x hy hx h hh
    obtain ⟨y', hy', e1⟩ := back a y hy
    rw [handleFor_recv] at hh
    rw [e1]; exact hi.only a y' x hy' hx h hh
  · intro l1 l l2 k b a he hs
    rcases winSnoc he with ⟨_, rfl⟩ | ⟨l3, he⟩
    · rcases hs with ⟨_, _, h, _⟩ | ⟨_, _, h, _⟩ <;> cases h
    · exact hi.steps l1 l l3 k b a he hs

theorem wholeInv_other (hi : WholeWinInv debug w0 ls w ob) {w2 : WinWorld} (workers : Nat → HTable)
    (ho : WinOther (fun h => ∃ j x, w.calls j = some x ∧ h ∈ x.owned)
      (fun h => ∃ j x, w.calls j = some x ∧ x.phase.over = false ∧ DeclaredHandle x.policy x.config h) w.world w2)
    (ht : ∀ j th, w.threads j = some th → ∀ h ∈ th.owned, w.world⟪h⟫ ≠ none → w2⟪h⟫ = w.world⟪h⟫) :
    WholeWinInv debug w0 ls { w with world := w2, workers := workers } ob := by
  refine ⟨.other _ ⟨w.world, w.calls⟩ w2 hi.created ho, ?_, hi.thread, hi.silent, hi.apart, hi.calls, hi.lent, ?_, ?_, hi.distinct,
    hi.holds, hi.only, hi.steps⟩
  · intro k th hk
    obtain ⟨x, q, mine, remote, l0, h1, h2, h3, h4, h5⟩ := hi.run k th hk
    exact ⟨x, q, mine, remote, l0, h1, h2, h3, oneWin_other h4 (ht k th hk), h5⟩
  · intro k th hk
    exact ⟨Nat.lt_of_lt_of_le (hi.old k th hk).1 ho.next, Nat.lt_of_lt_of_le (hi.old k th hk).2 ho.next⟩
  · intro k l th x hk hx h hh
    have := (ho.kept h (.inl ⟨l, x, hx, hh⟩)).1
    simp only
    rw [this]
    exact hi.free k l th x hk hx h hh

theorem wholeInv_serve (h0 : NoWinWorkers w0) (hi : WholeWinInv debug w0 ls w ob) (hn : NoneNamed ls) {j : Nat}
    {th : WinLoop} (hj : w.threads j = some th)
    (hf : ∀ h o, w.world⟪h⟫ = none → (th.go debug w.shared).1.broker.get h = some o →
      w.world.pw.next ≤ o ∧ ∀ i ∈ w.world.pw.pipes, i.client ≠ some o) :
    WholeWinInv debug w0 (ls ++ [.serve j w.shared (th.go debug w.shared).1]) (w.served j (th.go debug w.shared)) ob := by
  have ci := wexec_inv h0.calls hi.created
  obtain ⟨x0, q0, mine0, remote0, hx0, hph0, hborn0, tied⟩ := hi.tied hn hj
  have hnh : ∀ i ∈ winHeard j ([.spawned j x0.policy.runtime mine0 remote0 (ob j).1 (ob j).2] ++ threadEvents j ls),
      winNamed i.1 = none := by
    intro i hm
    obtain ⟨s, hm⟩ := winHeard_mem hm
    exact hn.thread j _ _ _ _ _ _ _ _ _ hm
  have goes := winLoop_go debug w.shared th (ob j).1 (ob j).2 _ tied.holds (tied.policyEq ▸ tied.track) hnh
  have table := winLoop_table debug w.shared th
  have hgo : (th.go debug w.shared).1.broker = w.world.pw.handles ∨
      (∃ h o, w.world⟪h⟫ = none ∧ (th.go debug w.shared).1.broker = (h, o) :: w.world.pw.handles) ∨
      ∃ h, (th.go debug w.shared).1.broker = w.world.pw.handles.close h :=
    table.imp id (Or.imp (fun ⟨h, o, a, b, _⟩ => ⟨h, o, a, b⟩) id)
  have gain : ∀ h, w.world⟪h⟫ = none → (th.go debug w.shared).1.broker.get h ≠ none → h ∈ (th.go debug w.shared).2.owned := by
    intro h h1 h2
    rcases table with e | ⟨k, o, a, b, c⟩ | ⟨k, e⟩
    · rw [e] at h2; exact absurd h1 h2
    · rw [b, HTable.get_cons_if] at h2
      split at h2
      · rename_i e; rw [e]; exact c
      · exact absurd h1 h2
    · rw [e, HTable.get_close_if] at h2
      split at h2
      · exact absurd rfl h2
      · exact absurd h1 h2
  have hother : WinOther (fun h => ∃ j x, w.calls j = some x ∧ h ∈ x.owned)
      (fun h => ∃ j x, w.calls j = some x ∧ x.phase.over = false ∧ DeclaredHandle x.policy x.config h) w.world
      (w.world.withHandles (th.go debug w.shared).1.broker) := by
    refine withHandles_other (o := th.owned) ci.wf hgo goes.others hf ?_ ?_
    · rintro h ⟨k, x, hx, hm⟩
      refine ⟨(ci.own k x hx).present h hm, fun h' he hc => ?_⟩
      exact hi.calls j k th x hj hx h' hc ((ci.own k x hx).closed h hm h' he)
    · rintro h ⟨k, x, hx, ho, hd⟩
      exact ⟨hi.lent j k th x hj hx ho h hd, (ci.lent k x hx ho h hd).1⟩
  have hrun : ∀ l0 evs, WinLoopsExec debug l0 evs (oneWin w.shared j th) → WinLoopsExec debug l0
      (evs ++ [.step j w.shared (th.go debug w.shared).1]) (oneWin (th.go debug w.shared).1 j (th.go debug w.shared).2) := by
    intro l0 evs h
    have := WinLoopsExec.step _ (oneWin w.shared j th) j th h (by simp [oneWin])
    rw [oneWin_put] at this
    exact this
  generalize th.go debug w.shared = g at goes table gain hother hrun ⊢
  obtain ⟨s', th'⟩ := g
  simp only at goes table gain hother hrun ⊢
  have get : ∀ k y, (w.served j (s', th')).threads k = some y → (k = j ∧ y = th') ∨ (k ≠ j ∧ w.threads k = some y) := by
    intro k x h
    simp only [WholeWin.served] at h
    split at h
    · rename_i e; cases h; exact .inl ⟨e, rfl⟩
    · rename_i e; exact .inr ⟨e, h⟩
  have back : ∀ k y, (w.served j (s', th')).threads k = some y → ∃ y', w.threads k = some y' := by
    intro k y h
    rcases get k y h with ⟨rfl, rfl⟩ | ⟨_, h⟩
    · exact ⟨th, hj⟩
    · exact ⟨y, h⟩
  -- the handles of the thread were its own or free
  have fresh : ∀ h ∈ th'.owned, h ∈ th.owned ∨ w.world⟪h⟫ = none := goes.mine
  have notOther : ∀ k y, k ≠ j → w.threads k = some y → ∀ h ∈ th'.owned, h ∉ y.owned := by
    intro k y hk hy h hh hm
    rcases fresh h hh with h1 | h1
    · exact hi.apart j k th y (Ne.symm hk) hj hy h h1 hm
    · exact hi.present hn hy hm h1
  refine ⟨?_, ?_, ?_, ?_, ?_, ?_, ?_, ?_, ?_, ?_, ?_, ?_, ?_⟩
  · rw [createEvents_append]
    have := WinCreatorsExec.other _ ⟨w.world, w.calls⟩ _ hi.created hother
    simpa [createEvents, WholeWin.served] using this
  · intro k y ht0
    rcases get k y ht0 with ⟨rfl, rfl⟩ | ⟨hk, ht⟩
    · obtain ⟨x, q, mine, remote, l0, h1, h2, h3, h4, h5⟩ := hi.run k th hj
      refine ⟨x, q, mine, remote, l0, h1, h2, h3, ?_, h5.more _⟩
      have := hrun _ _ h4
      rw [threadEvents_append, ← List.append_assoc]
      have e : threadEvents k [.serve k w.shared s'] = [.step k w.shared s'] := by simp [threadEvents]
      rw [e]
      exact this
    · obtain ⟨x, q, mine, remote, l0, h1, h2, h3, h4, h5⟩ := hi.run k y ht
      refine ⟨x, q, mine, remote, l0, h1, h2, h3, ?_, h5.more _⟩
      rw [threadEvents_append]
      have : threadEvents k [.serve j w.shared s'] = [] := by simp [threadEvents, Ne.symm hk]
      rw [this, List.append_nil]
      refine oneWin_other h4 fun h hh ho => goes.others h (fun hc => hi.apart j k th y (Ne.symm hk) hj ht h hc hh) ho
  · intro k x q mine remote hx hph
    obtain ⟨y, hy⟩ := hi.thread k x q mine remote hx hph
    simp only [WholeWin.served]
    split
    · exact ⟨_, rfl⟩
    · exact ⟨y, hy⟩
  · intro k hk
    simp only [WholeWin.served] at hk
    split at hk
    · cases hk
    · rename_i e
      rw [threadEvents_append, hi.silent k hk]
      simp [threadEvents, Ne.symm e]
  · intro a b y z hab hy0 hz0 h hh
    rcases get a y hy0 with ⟨rfl, rfl⟩ | ⟨ha, hy⟩
    · rcases get b z hz0 with ⟨rfl, rfl⟩ | ⟨hb, hz⟩
      · exact absurd rfl hab
      · exact notOther b z hb hz h hh
    · rcases get b z hz0 with ⟨_, rfl⟩ | ⟨hb, hz⟩
      · exact fun hc => notOther a y ha hy h hc hh
      · exact hi.apart a b y z hab hy hz h hh
  · intro a b y x hy0 hx h hh
    rcases get a y hy0 with ⟨rfl, rfl⟩ | ⟨ha, hy⟩
    · rcases fresh h hh with h1 | h1
      · exact hi.calls a b th x hj hx h h1
      · exact fun hc => (ci.own b x hx).present h hc h1
    · exact hi.calls a b y x hy hx h hh
  · intro a b y x hy0 hx ho h hd hm
    rcases get a y hy0 with ⟨rfl, rfl⟩ | ⟨ha, hy⟩
    · rcases fresh h hm with h1 | h1
      · exact hi.lent a b th x hj hx ho h hd h1
      · exact (ci.lent b x hx ho h hd).1 h1
    · exact hi.lent a b y x hy hx ho h hd hm
  · intro a y hy
    obtain ⟨y', hy'⟩ := back a y hy
    exact ⟨Nat.lt_of_lt_of_le (hi.old a y' hy').1 hother.next, Nat.lt_of_lt_of_le (hi.old a y' hy').2 hother.next⟩
  · intro a b y x hy hx h hh
    obtain ⟨y', hy'⟩ := back a y hy
    have := (hother.kept h (.inl ⟨b, x, hx, hh⟩)).1
    show (w.world.withHandles s'.broker)⟪h⟫ ≠ _ ∧ (w.world.withHandles s'.broker)⟪h⟫ ≠ _
    rw [this]
    exact hi.free a b y' x hy' hx h hh
  · intro a b y z hab hy hz
    obtain ⟨y', hy'⟩ := back a y hy
    obtain ⟨z', hz'⟩ := back b z hz
    exact hi.distinct a b y' z' hab hy' hz'
  · intro a y hy0 h hh
    rw [handleFor_serve]
    rcases get a y hy0 with ⟨rfl, rfl⟩ | ⟨ha, hy⟩
    · rw [if_pos rfl]
      refine ⟨goes.holds.open hh, ?_⟩
      rcases fresh h hh with h1 | h1
      · exact .inl (hi.holds a th hj h h1)
      · exact .inr h1
    · rw [if_neg (Ne.symm ha)]
      exact hi.holds a y hy h hh
  · intro a y x hy0 hx h hh
    rw [handleFor_serve] at hh
    rcases get a y hy0 with ⟨rfl, rfl⟩ | ⟨ha, hy⟩
    · rw [if_pos rfl] at hh
      obtain ⟨h1, h2 | h2⟩ := hh
      · rcases hi.only a th x hj hx h h2 with h3 | h3
        · by_cases h4 : h ∈ y.owned
          · exact .inl h4
          · exact absurd (goes.released h h3 h4) h1
        · exact .inr h3
      · exact .inl (gain h h2 h1)
    · rw [if_neg (Ne.symm ha)] at hh
      exact hi.only a y x hy hx h hh
  · intro l1 l l2 k b a he hs h hb ha
    rcases winSnoc he with ⟨rfl, rfl⟩ | ⟨l3, he⟩
    · rcases hs with ⟨_, _, h, _⟩ | ⟨b', a', h1, rfl, rfl⟩
      · cases h
      · cases h1
        refine hi.holds _ th hj h (Classical.byContradiction fun hc => ha (goes.others h hc hb))
    · exact hi.steps l1 l l3 k b a he hs h hb ha

theorem wholeInv_go (h0 : NoWinWorkers w0) (hi : WholeWinInv debug w0 ls w ob) (hn : NoneNamed ls) {j : Nat}
    {x : WCreation} (hj : w.calls j = some x) (hx : x.phase.over = false) :
    ∃ ob', WholeWinInv debug w0 (ls ++ [.step j w.world (x.go w.world).1]) (w.create j x) ob' := by
  have ci := wexec_inv h0.calls hi.created
  have created : WinCreatorsExec DeclaredHandle ⟨w0.world, w0.calls⟩ (createEvents (ls ++ [.step j w.world (x.go w.world).1]))
      ⟨(w.create j x).world, (w.create j x).calls⟩ := by
    rw [createEvents_append]
    exact .go _ ⟨w.world, w.calls⟩ j x hi.created hj hx
  have ci' := wexec_inv h0.calls created
  have hg := wgo_ok hx ci.wf (ci.own j x hj) (ci.ok j x hj)
  have nothread : w.threads j = none := by
    cases ht : w.threads j with
    | none => rfl
    | some th =>
      obtain ⟨y, q, mine, remote, l0, h1, h2, _⟩ := hi.run j th ht
      rw [hj] at h1; cases h1
      rw [h2] at hx; cases hx
  have te : ∀ k, threadEvents k (ls ++ [.step j w.world (x.go w.world).1]) = threadEvents k ls := by
    intro k; rw [threadEvents_append]; simp [threadEvents]
  have hq : threadEvents j (ls ++ [.step j w.world (x.go w.world).1]) = [] := by rw [te]; exact hi.silent j nothread
  have getC : ∀ k y, (w.create j x).calls k = some y → (k = j ∧ y = (x.go w.world).2) ∨ (k ≠ j ∧ w.calls k = some y) := by
    intro k y h
    simp only [WholeWin.create] at h
    split at h
    · rename_i e; cases h; exact .inl ⟨e, rfl⟩
    · rename_i e; exact .inr ⟨e, h⟩
  have getT : ∀ k y, (w.create j x).threads k = some y → (k = j ∧ x.thread = some y) ∨ (k ≠ j ∧ w.threads k = some y) := by
    intro k y h
    simp only [WholeWin.create] at h
    split at h
    · rename_i e; exact .inl ⟨e, h⟩
    · rename_i e; exact .inr ⟨e, h⟩
  -- the handles of the threads there were
  have keep : ∀ k th, w.threads k = some th → ∀ h ∈ th.owned, (x.go w.world).1⟪h⟫ = w.world⟪h⟫ := by
    intro k th ht h hh
    exact (hg.moves.keep h (hi.present hn ht hh) (hi.calls k j th x ht hj h hh)).1
  have fresh : ∀ h ∈ (x.go w.world).2.owned, h ∈ x.owned ∨ w.world⟪h⟫ = none :=
    fun h hh => hg.moves.fresh h (owned_sub_holds _ h hh)
  have spawned : ∃ po qo, ∀ th, x.thread = some th → ∃ mine q remote ch theirs i c, x.phase = .spawning mine q remote ∧
      th = ⟨x.policy.runtime, mine, remote, .greeting, [], []⟩ ∧ x.go w.world = (w.world, x.at (.served q mine remote)) ∧
      x.child = some ch ∧ ch.environment = envBlock (mergeEnv x.os.sys (x.config.envp ++ [ipcHandleVar theirs.toNat])) ∧
      i ∈ w.world.pw.pipes ∧ i.server = po ∧ w.world⟪mine⟫ = some po ∧ i.client = some c ∧ ch.handles.get theirs = some c ∧
      qo = ch.object ∧ w.world⟪remote⟫ = some qo ∧ mine ≠ remote ∧ x.owned = [mine, remote, x.os.hProcess] := by
    cases ht : x.thread with
    | none => exact ⟨0, 0, by simp⟩
    | some th =>
      obtain ⟨mine, q, remote, h1, h2, h3⟩ := thread_spawns ht w.world
      have ok := ci.ok j x hj
      simp only [WPhaseOk, h1] at ok
      obtain ⟨theirs, ch, ⟨c1, c2, c3, i, hm, c, c4, c5, c6, _⟩, c7⟩ := ok
      have own := ci.own j x hj
      have ho : x.owned = [mine, remote, x.os.hProcess] := by simp [WCreation.owned, h1]
      refine ⟨i.server, ch.object, fun th' e => ?_⟩
      cases e
      refine ⟨mine, q, remote, ch, theirs, i, c, h1, h2, h3, c1, c2, hm, rfl, c4, c5, c6, rfl, c7, ?_, ho⟩
      have := own.nodup
      rw [ho] at this
      simp at this
      exact this.1.1
  obtain ⟨po, qo, spawned⟩ := spawned
  have owned2 : ∀ th, x.thread = some th → ∀ h ∈ th.owned, h ∈ x.owned := by
    intro th ht h hh
    obtain ⟨mine, q, remote, ch, theirs, i, c, _, rfl, _, _, _, _, _, _, _, _, _, _, _, ho⟩ := spawned th ht
    rw [ho]
    simp only [WinLoop.owned] at hh
    rcases List.mem_cons.1 hh with rfl | hh
    · simp
    · rw [List.mem_singleton] at hh; simp [hh]
  have same : ∀ th, x.thread = some th → (x.go w.world).1 = w.world := by
    intro th ht
    obtain ⟨mine, q, remote, ch, theirs, i, c, _, _, h3, _⟩ := spawned th ht
    rw [h3]
  have after : ∀ th, x.thread = some th → (x.go w.world).2.owned = [] ∧ (x.go w.world).2.phase.over = true := by
    intro th ht
    obtain ⟨mine, q, remote, ch, theirs, i, c, _, _, h3, _⟩ := spawned th ht
    rw [h3]
    exact ⟨rfl, rfl⟩
  have served : ∀ th, x.thread = some th → ∀ h, HandleFor j (ls ++ [.step j w.world (x.go w.world).1]) h ↔
      h ∈ th.owned ∨ h = x.os.hProcess := by
    intro th ht h
    obtain ⟨mine, q, remote, ch, theirs, i, c, _, rfl, h3, _⟩ := spawned th ht
    rw [handleFor_created _ _ hq, C132_served _ _ _ h0.calls created j (x.go w.world).2 (by simp [WholeWin.create]) q mine remote
      (by rw [h3]; rfl), h3]
    simp [WinLoop.owned, WCreation.at, or_assoc]
  refine ⟨fun k => if k = j then (po, qo) else ob k, created, ?_, ?_, ?_, ?_, ?_, ?_, ?_, ?_, ?_, ?_, ?_, ?_⟩
  · intro k th ht0
    rcases getT k th ht0 with ⟨rfl, ht⟩ | ⟨hk, ht⟩
    · obtain ⟨mine, q, remote, ch, theirs, i, c, h1, rfl, h3, h4, h5, h6, h7, h8, h9, h10, h11, h12, h13, h14⟩ := spawned th ht
      let t : HTable := (w.world.pw.handles.close mine).close remote
      have e1 : t.get mine = none := by
        simp only [t, HTable.get_close_if]; split <;> simp
      have e2 : t.get remote = none := by
        simp only [t, HTable.get_close_if]; simp
      refine ⟨(x.go w.world).2, q, mine, remote, ⟨⟨t, w.workers⟩, fun _ => none⟩, by simp [WholeWin.create], by rw [h3]; rfl,
        fun _ => rfl, ?_, ?_⟩
      · rw [hq, List.append_nil, if_pos rfl, h3]
        have := WinLoopsExec.spawn (debug := debug) [] _ k x.policy.runtime mine remote po qo
          (.start (w := ⟨⟨t, w.workers⟩, fun _ => none⟩)) rfl e1 e2 h13 (by simp)
        rw [List.nil_append] at this
        have e : ∀ s : WinShared, (WinLoops.put ⟨⟨t, w.workers⟩, fun _ => none⟩ k
            (s, ⟨x.policy.runtime, mine, remote, .greeting, [], []⟩)) =
            oneWin s k ⟨x.policy.runtime, mine, remote, .greeting, [], []⟩ := fun _ => rfl
        rw [e] at this
        refine oneWin_other this fun h hh _ => ?_
        show (x.go w.world).1⟪h⟫ = _
        rw [h3]
        simp only [WinLoop.owned] at hh
        rcases List.mem_cons.1 hh with rfl | hh
        · simp only [HTable.get_cons_if]; simp [h8]
        · rw [List.mem_singleton] at hh
          subst hh
          simp only [HTable.get_cons_if]; simp [h12, Ne.symm h13]
      · rw [if_pos rfl]
        refine ⟨ch, theirs, by rw [h3]; exact h4, by rw [h3]; exact h5, h11, _, _, List.mem_append_right _ (List.mem_singleton.2 rfl), i,
          by rw [h3]; exact h6, c, h7, h9, h10⟩
    · obtain ⟨y, q, mine, remote, l0, h1, h2, h3, h4, h5⟩ := hi.run k th ht
      simp only [if_neg hk]
      refine ⟨y, q, mine, remote, l0, by simp [WholeWin.create, hk, h1], h2, h3, ?_, h5.more _⟩
      rw [te]
      exact oneWin_other h4 fun h hh _ => keep k th ht h hh
  · intro k y q mine remote hy0 hp
    simp only [WholeWin.create]
    rcases getC k y hy0 with ⟨rfl, rfl⟩ | ⟨hk, hy⟩
    · exact ⟨_, by rw [if_pos rfl]; exact spawns_thread hx hp⟩
    · obtain ⟨th, ht⟩ := hi.thread k y q mine remote hy hp
      exact ⟨th, by rw [if_neg hk]; exact ht⟩
  · intro k hk
    simp only [WholeWin.create] at hk
    split at hk
    · rename_i e; subst e; exact hq
    · rw [te]; exact hi.silent k hk
  · intro a b y z hab hy0 hz0 h hh
    rcases getT a y hy0 with ⟨ha, hy⟩ | ⟨ha, hy⟩
    · rcases getT b z hz0 with ⟨hb, _⟩ | ⟨hb, hz⟩
      · exact absurd (ha.trans hb.symm) hab
      · exact fun hc => hi.calls b j z x hz hj h hc (owned2 y hy h hh)
    · rcases getT b z hz0 with ⟨hb, hz⟩ | ⟨hb, hz⟩
      · exact fun hc => hi.calls a j y x hy hj h hh (owned2 z hz h hc)
      · exact hi.apart a b y z hab hy hz h hh
  · intro a b y z hy0 hz0 h hh hm
    rcases getT a y hy0 with ⟨ha, hy⟩ | ⟨ha, hy⟩
    · rcases getC b z hz0 with ⟨hb, rfl⟩ | ⟨hb, hz⟩
      · rw [(after y hy).1] at hm; cases hm
      · exact ci.apart j b x z (Ne.symm hb) hj hz h (owned2 y hy h hh) hm
    · rcases getC b z hz0 with ⟨hb, rfl⟩ | ⟨hb, hz⟩
      · rcases fresh h hm with h1 | h1
        · exact hi.calls a j y x hy hj h hh h1
        · exact hi.present hn hy hh h1
      · exact hi.calls a b y z hy hz h hh hm
  · intro a b y z hy0 hz0 ho h hd hm
    rcases getC b z hz0 with ⟨hb, rfl⟩ | ⟨hb, hz⟩
    · rcases getT a y hy0 with ⟨ha, hy⟩ | ⟨ha, hy⟩
      · rw [(after y hy).2] at ho; cases ho
      · rw [hg.policy, hg.config] at hd
        exact hi.lent a j y x hy hj hx h hd hm
    · rcases getT a y hy0 with ⟨ha, hy⟩ | ⟨ha, hy⟩
      · exact (ci.lent b z hz ho h hd).2 j x hj (owned2 y hy h hm)
      · exact hi.lent a b y z hy hz ho h hd hm
  · intro k th ht0
    rcases getT k th ht0 with ⟨rfl, ht⟩ | ⟨hk, ht⟩
    · obtain ⟨mine, q, remote, ch, theirs, i, c, h1, rfl, h3, h4, h5, h6, h7, h8, h9, h10, h11, h12, h13, h14⟩ := spawned th ht
      rw [if_pos rfl]
      show po < (x.go w.world).1.pw.next ∧ qo < (x.go w.world).1.pw.next
      rw [h3]
      exact ⟨ci.wf.objects _ _ h8, ci.wf.objects _ _ h12⟩
    · rw [if_neg hk]
      exact ⟨Nat.lt_of_lt_of_le (hi.old k th ht).1 hg.moves.next, Nat.lt_of_lt_of_le (hi.old k th ht).2 hg.moves.next⟩
  · intro a b y z hy0 hz0 h hh
    show (x.go w.world).1⟪h⟫ ≠ _ ∧ (x.go w.world).1⟪h⟫ ≠ _
    rcases getT a y hy0 with ⟨rfl, hy⟩ | ⟨ha, hy⟩
    · rcases getC b z hz0 with ⟨hb, rfl⟩ | ⟨hb, hz⟩
      · rw [(after y hy).1] at hh; cases hh
      · obtain ⟨mine, q, remote, ch, theirs, i, c, h1, rfl, h3, h4, h5, h6, h7, h8, h9, h10, h11, h12, h13, h14⟩ := spawned y hy
        rw [if_pos rfl, h3]
        refine ⟨fun e => ?_, fun e => ?_⟩
        · exact ci.apart _ b x z (Ne.symm hb) hj hz h ((ci.own _ x hj).closed mine (by simp [h14]) h (by rw [h8]; exact e)) hh
        · exact ci.apart _ b x z (Ne.symm hb) hj hz h ((ci.own _ x hj).closed remote (by simp [h14]) h (by rw [h12]; exact e)) hh
    · rw [if_neg ha]
      rcases getC b z hz0 with ⟨hb, rfl⟩ | ⟨hb, hz⟩
      · have key : ∀ o, o < w.world.pw.next → (∀ h ∈ x.owned, w.world⟪h⟫ ≠ some o) → (x.go w.world).1⟪h⟫ ≠ some o := by
          intro o ho hne e
          rcases hg.moves.objs h o e with ⟨k, h1, rfl | h2⟩ | h1
          · rcases fresh k hh with h3 | h3
            · exact hne k h3 h1
            · rw [h3] at h1; cases h1
          · exact hne k h2 h1
          · exact absurd ho (Nat.not_lt.2 h1)
        exact ⟨key _ (hi.old a y hy).1 fun h hm => (hi.free a j y x hy hj h hm).1,
          key _ (hi.old a y hy).2 fun h hm => (hi.free a j y x hy hj h hm).2⟩
      · have : (x.go w.world).1⟪h⟫ = w.world⟪h⟫ :=
          (hg.moves.keep h ((ci.own b z hz).present h hh) fun hc => ci.apart b j z x hb hz hj h hh hc).1
        rw [this]
        exact hi.free a b y z hy hz h hh
  · intro a b y z hab hy0 hz0
    have key : ∀ a y z, a ≠ j → w.threads a = some y → x.thread = some z → (ob a).1 ≠ po ∧ (ob a).2 ≠ qo := by
      intro a y z ha hy hz
      obtain ⟨mine, q, remote, ch, theirs, i, c, h1, rfl, h3, h4, h5, h6, h7, h8, h9, h10, h11, h12, h13, h14⟩ := spawned z hz
      refine ⟨fun e => (hi.free a j y x hy hj mine (by simp [h14])).1 (by rw [e]; exact h8),
        fun e => (hi.free a j y x hy hj remote (by simp [h14])).2 (by rw [e]; exact h12)⟩
    rcases getT a y hy0 with ⟨ha, hy⟩ | ⟨ha, hy⟩
    · rcases getT b z hz0 with ⟨hb, _⟩ | ⟨hb, hz⟩
      · exact absurd (ha.trans hb.symm) hab
      · rw [if_pos ha, if_neg hb]
        exact ⟨(key b z y hb hz hy).1.symm, (key b z y hb hz hy).2.symm⟩
    · rcases getT b z hz0 with ⟨hb, hz⟩ | ⟨hb, hz⟩
      · rw [if_pos hb, if_neg ha]
        exact key a y z ha hy hz
      · rw [if_neg ha, if_neg hb]
        exact hi.distinct a b y z hab hy hz
  · intro k th ht0 h hh
    rcases getT k th ht0 with ⟨rfl, ht⟩ | ⟨hk, ht⟩
    · exact (served th ht h).2 (.inl hh)
    · rw [handleFor_step, if_neg (Ne.symm hk)]
      exact hi.holds k th ht h hh
  · intro k th y ht0 hy0 h hh
    rcases getT k th ht0 with ⟨rfl, ht⟩ | ⟨hk, ht⟩
    · rcases getC k y hy0 with ⟨_, rfl⟩ | ⟨hk, _⟩
      · rw [hg.os]
        exact (served th ht h).1 hh
      · exact absurd rfl hk
    · rcases getC k y hy0 with ⟨e, _⟩ | ⟨_, hy⟩
      · exact absurd e hk
      · rw [handleFor_step, if_neg (Ne.symm hk)] at hh
        exact hi.only k th y ht hy h hh
  · intro l1 l l2 k b a he hs h hb ha
    rcases winSnoc he with ⟨rfl, rfl⟩ | ⟨l3, he⟩
    · rcases hs with ⟨b', a', h1, rfl, rfl⟩ | ⟨_, _, h, _⟩
      · cases h1
        rw [handleFor_created _ _ (hi.silent _ nothread)]
        refine ci'.steps (createEvents l1) [] _ _ _ ?_ h hb fun e => ha e.1
        rw [createEvents_append]
        rfl
      · cases h
    · exact hi.steps l1 l l3 k b a he hs h hb ha

end steps

theorem wholeWin_inv {debug : Bool} {w0 w : WholeWin} {ls : List WholeWinEvent} (h0 : NoWinWorkers w0)
    (he : WholeWinExec debug DeclaredHandle w0 ls w) (hn : NoneNamed ls) : ∃ ob, WholeWinInv debug w0 ls w ob := by
  induction he with
  | start =>
    refine ⟨fun _ => (0, 0), .start, ?_, ?_, fun _ _ => rfl, ?_, ?_, ?_, ?_, ?_, ?_, ?_, ?_, ?_⟩
    · intro j th h; rw [h0.threads j] at h; cases h
    · intro j x q mine remote h; cases (h0.calls.calls j).symm.trans h
    all_goals first
      | (intro j k th th' _ h; rw [h0.threads j] at h; cases h)
      | (intro j k th x h; rw [h0.threads j] at h; cases h)
      | (intro j th h; rw [h0.threads j] at h; cases h)
      | (intro j th x h; rw [h0.threads j] at h; cases h)
      | skip
    intro l1 l l2 j b a h
    simp at h
  | call ls w1 j c p os he hj hb ih =>
    obtain ⟨ob, hi⟩ := ih hn.left
    exact ⟨ob, wholeInv_call hi hj hb⟩
  | go ls w1 j x he hj hx ih =>
    obtain ⟨ob, hi⟩ := ih hn.left
    exact wholeInv_go h0 hi hn.left hj hx
  | recv ls w1 j th inc os he hj hp ih =>
    obtain ⟨ob, hi⟩ := ih hn.left
    exact ⟨ob, wholeInv_recv hi hj hp inc os⟩
  | serve ls w1 j th he hj hf ih =>
    obtain ⟨ob, hi⟩ := ih hn.left
    exact ⟨ob, wholeInv_serve h0 hi hn.left hj hf⟩
  | other ls w1 w2 workers he ho ht ih =>
    obtain ⟨ob, hi⟩ := ih hn
    exact ⟨ob, wholeInv_other hi workers ho ht⟩

end Iris
