import Verif.Lemmas.WinCreators
import Verif.Props.WinLaunch
/-! # C132: Windows workers created while other threads of the broker run -/
namespace Iris
open Spec

local notation:max w "⟪" h "⟫" => HTable.get (PipeWorld.handles (WinWorld.pw w)) h

/-! ## Numbers of profiles -/

/-- The profiles among these attributes. -/
def capIds (a : List ProcAttr) : List Nat :=
  a.filterMap fun
    | .securityCapabilities id => some id
    | _ => none

/-- The profiles among what is left to be dropped. -/
def leftProfiles (l : List WLeft) : List Nat :=
  l.filterMap fun
    | .profile id => some id
    | .handle _ => none

/-- The numbers of profiles a call knows. -/
def WPhase.numbers : WPhase → List Nat
  | .profiling _ _ _ id | .deleting _ _ _ id | .recreating _ _ _ id => [id]
  | .creating _ _ _ a prof => prof.toList ++ capIds a
  | .identifying _ _ prof => prof.toList
  | .attaching _ q | .handing _ q _ | .spawning _ q _ | .served q _ _ => q.profile.toList
  | .failing _ left => leftProfiles left
  | _ => []

theorem fail_numbers (err : Option BrokerError) (l : List WLeft) : (WPhase.fail err l).numbers = leftProfiles l := by
  cases l <;> rfl

theorem drops_numbers (os : LaunchOs) (q : WinProcess) (l : List WLeft) :
    ∀ id ∈ leftProfiles (dropsOf os q ++ l), id ∈ q.profile.toList ∨ id ∈ leftProfiles l := by
  obtain ⟨pid, profile⟩ := q
  intro id
  unfold dropsOf
  cases os.supported with
  | false => exact .inr
  | true =>
    cases profile with
    | none => exact .inr
    | some n =>
      intro h
      rcases List.mem_cons.1 h with h | h
      · exact .inl (List.mem_singleton.2 h)
      · exact .inr h

theorem capIds_append (a b : List ProcAttr) : capIds (a ++ b) = capIds a ++ capIds b := List.filterMap_append

theorem trySet_capIds {b : Bool} {r : WinRound} {at_ : ProcAttr} {l l' : List ProcAttr} (h : trySet b r at_ l = some l') :
    ∀ id ∈ capIds l', id ∈ capIds l ∨ id ∈ capIds [at_] := by
  unfold trySet at h
  split at h
  · split at h
    · cases h
      intro id hid
      rw [capIds_append] at hid
      exact List.mem_append.1 hid
    · cases h
  · cases h; exact fun id h => .inl h

theorem afterCaps_numbers (j : WJob) (k : Nat) (f : WinFlags) (r : WinRound) (a : List ProcAttr) (prof : Option Nat) :
    ∀ id ∈ (winAfterCaps j k f r a prof).numbers, id ∈ prof.toList ∨ id ∈ capIds a := by
  unfold winAfterCaps
  intro id
  split
  · intro h; cases h
  · rename_i a1 h1
    split
    · intro h; cases h
    · rename_i a2 h2
      split
      · intro h; cases h
      · rename_i a3 h3
        intro h
        rcases List.mem_append.1 h with h | h
        · exact .inl h
        · rcases trySet_capIds h3 id h with h | h
          · rcases trySet_capIds h2 id h with h | h
            · rcases trySet_capIds h1 id h with h | h
              · exact .inr h
              · cases h
            · cases h
          · cases h

theorem afterProfile_numbers (j : WJob) (k : Nat) (f : WinFlags) (r : WinRound) (n : Nat) :
    ∀ id ∈ (winAfterProfile j k f r n).numbers, id = n := by
  unfold winAfterProfile
  intro id
  split
  · intro h; cases h
  · rename_i a1 h1
    split
    · intro h; cases h
    · rename_i a2 h2
      intro h
      rcases afterCaps_numbers _ _ _ _ _ _ id h with h | h
      · exact List.mem_singleton.1 h
      · rcases trySet_capIds h2 id h with h | h
        · rcases trySet_capIds h1 id h with h | h
          · cases h
          · exact List.mem_singleton.1 h
        · cases h

/-- A call learns a number only by taking it. -/
theorem wgo_numbers (w : WinWorld) (x : WCreation) : ∀ id ∈ (x.go w).2.phase.numbers,
    id ∈ x.phase.numbers ∨ (w.start.nextId = id ∧ id < (x.go w).1.start.nextId) := by
  obtain ⟨c, p, os, ph, chd⟩ := x
  have ends : ∀ err e, ∀ id ∈ (WPhase.failEnds err e).numbers, False := by intro err e id h; cases h
  cases ph with
  | naming k id =>
    simp only [WCreation.go]
    split
    · intro id h; cases h
    · split
      · intro id h
        simp only [WCreation.at] at h
        split at h <;> cases h
      · intro id h; cases h
  | opening k name m => simp only [WCreation.go]; split <;> (intro id h; cases h)
  | connecting k e =>
    simp only [WCreation.go]
    split
    · intro id h; cases h
    · split
      · intro id h; exact (ends _ _ id h).elim
      · intro id h; cases h
  | moding k e => simp only [WCreation.go]; split <;> (intro id h; cases h)
  | marking e => simp only [WCreation.go]; split <;> (intro id h; cases h)
  | checking e p1 l =>
    cases l with
    | nil =>
      simp only [WCreation.go, winAfterChecks]
      split
      · intro id h; cases h
      · split <;> (intro id h; cases h)
    | cons raw l => simp only [WCreation.go]; split <;> (intro id h; cases h)
  | locating j => simp only [WCreation.go]; split <;> (intro id h; cases h)
  | listing j k f =>
    simp only [WCreation.go]
    split
    · split
      · split <;> (intro id h; cases h)
      · intro id h
        rcases afterCaps_numbers _ _ _ _ _ _ id h with h | h <;> cases h
    · intro id h; cases h
  | numbering j k f =>
    intro id h
    rw [List.mem_singleton.1 h]
    exact .inr ⟨rfl, Nat.lt_succ_self _⟩
  | profiling j k f n =>
    simp only [WCreation.go]
    split
    · intro id h; exact .inl h
    · split
      · intro id h; exact .inl (List.mem_singleton.2 (afterProfile_numbers _ _ _ _ _ id h))
      · intro id h; cases h
  | deleting j k f n => intro id h; exact .inl h
  | recreating j k f n =>
    simp only [WCreation.go]
    split
    · intro id h; exact .inl (List.mem_singleton.2 (afterProfile_numbers _ _ _ _ _ id h))
    · intro id h; cases h
  | creating j k f a prof =>
    simp only [WCreation.go]
    split
    · intro id h; exact .inl (List.mem_append_left _ h)
    · split <;> (intro id h; cases h)
  | identifying e k prof =>
    simp only [WCreation.go]
    split
    · intro id h; cases h
    · intro id h; exact .inl h
  | attaching e q =>
    simp only [WCreation.go]
    split
    · intro id h
      simp only [WCreation.at, fail_numbers] at h
      rcases drops_numbers _ _ _ id h with h | h
      · exact .inl h
      · cases h
    · intro id h; exact .inl h
  | handing e q r => intro id h; exact .inl h
  | spawning m q r =>
    simp only [WCreation.go]
    split
    · intro id h; exact .inl h
    · intro id h
      have := drops_numbers os q [] id
      rw [List.append_nil] at this
      rcases this h with h | h
      · exact .inl h
      · cases h
  | failing err l =>
    cases l with
    | nil => intro id h; cases h
    | cons a l =>
      intro id h
      simp only [WCreation.go, WCreation.at, fail_numbers] at h
      refine .inl ?_
      cases a with
      | handle _ => exact h
      | profile n => exact List.mem_cons_of_mem _ h
  | failed _ => intro id h; cases h
  | panicked => intro id h; cases h
  | served _ _ _ => intro id h; exact .inl h

/-- A call creates and deletes only profiles of the numbers it knows. -/
theorem wgo_profiles (w : WinWorld) (x : WCreation) : ∀ id, id ∉ x.phase.numbers →
    (id ∈ (x.go w).1.start.profiles ↔ id ∈ w.start.profiles) := by
  obtain ⟨c, p, os, ph, chd⟩ := x
  have add : ∀ n id, id ∉ [n] → (id ∈ (w.addProfile n).start.profiles ↔ id ∈ w.start.profiles) := by
    intro n id h
    simp only [WinWorld.addProfile, List.mem_append]
    exact ⟨fun h' => h'.resolve_right h, .inl⟩
  have del : ∀ n id, id ∉ [n] → (id ∈ (w.deleteProfile n).start.profiles ↔ id ∈ w.start.profiles) := by
    intro n id h
    simp only [WinWorld.deleteProfile, List.mem_filter, decide_eq_true_eq]
    exact ⟨fun h' => h'.1, fun h' => ⟨h', by simpa using h⟩⟩
  cases ph with
  | checking e p1 l =>
    cases l with
    | nil => exact fun id _ => .rfl
    | cons raw l => simp only [WCreation.go]; split <;> exact fun id _ => .rfl
  | profiling j k f n =>
    simp only [WCreation.go]
    split
    · exact fun id _ => .rfl
    · split
      · exact add n
      · exact fun id _ => .rfl
  | deleting j k f n => exact del n
  | recreating j k f n =>
    simp only [WCreation.go]
    split
    · exact add n
    · exact fun id _ => .rfl
  | attaching e q =>
    simp only [WCreation.go]
    split
    · exact fun id _ => .rfl
    · rename_i h w' he
      simp only [WinWorld.openProcess] at he
      split at he
      · split at he
        · cases he; exact fun id _ => .rfl
        · cases he
      · cases he
  | failing err l =>
    cases l with
    | nil => exact fun id _ => .rfl
    | cons a l =>
      cases a with
      | handle _ => exact fun id _ => .rfl
      | profile n =>
        intro id h
        exact del n id (fun hc => h (List.mem_cons.2 (.inl (List.mem_singleton.1 hc))))
  | _ =>
    simp only [WCreation.go]
    repeat' split
    all_goals first | exact fun id _ => Iff.rfl | exact fun id _ => trivial

/-! ## The process -/

/-- What a process created with a list of handles gets. -/
theorem newChild_handles {w : WinWorld} {x : WCreation} {j : WJob} {a : List ProcAttr} (hj : WJobOk w x j)
    (hl : ListsFor j a) (hh : HasHandleList (w.newChild x.os j a)) (h : BitVec 64) (o : Nat) :
    (w.newChild x.os j a).handles.get h = some o ↔
      (h = j.ends.theirs ∧ w⟪j.ends.theirs⟫ = some o) ∨
      (DeclaredHandle x.policy x.config h ∧ h ∈ w.inheritable ∧ w⟪h⟫ = some o) := by
  obtain ⟨l, hm⟩ := hh
  have hin : h ∈ j.policy.inheritedHandles.map (BitVec.ofNat 64) ↔ DeclaredHandle x.policy x.config h ∨ h = j.ends.theirs := by
    rw [List.mem_map]
    have pol : ∀ n, n ∈ j.policy.inheritedHandles ↔ (Declared x.policy x.config n ∨ n = j.ends.theirs.toNat) := by
      intro n
      have := hj.policy n
      simp only [List.not_mem_nil, or_false] at this
      exact this
    constructor
    · rintro ⟨n, h1, h2⟩
      rcases (pol n).1 h1 with h3 | rfl
      · exact .inl ⟨n, h3, h2⟩
      · right; rw [← h2]; simp
    · rintro (⟨n, h1, h2⟩ | rfl)
      · exact ⟨n, (pol n).2 (.inl h1), h2⟩
      · exact ⟨_, (pol _).2 (.inr rfl), by simp⟩
  show (childHandles w a).get h = some o ↔ _
  rw [childHandles_get]
  constructor
  · rintro ⟨h1, h2, h3⟩
    rcases hin.1 ((hl l hm h).1 (h2 l hm)) with h4 | rfl
    · exact .inr ⟨h4, h1, h3⟩
    · exact .inl ⟨rfl, h3⟩
  · rintro (⟨rfl, h1⟩ | ⟨h1, h2, h3⟩)
    · exact ⟨hj.marked, fun l' hm' => (hl l' hm' _).2 (hin.2 (.inr rfl)), h1⟩
    · exact ⟨h2, fun l' hm' => (hl l' hm' _).2 (hin.2 (.inl h1)), h3⟩

/-- What is right about a process created by call `x`, `before` being the state when the call was made. -/
def WChildRight (before : WinWorld) (x : WCreation) : Prop :=
  ∀ ch, x.child = some ch → HasHandleList ch →
    (∀ e ∈ x.config.envp, e ≠ [] ∧ (0 : UInt8) ∉ e ∧ ¬ NamesChannel e) → WinStartedRight before x.config x.policy ch

/-- What belongs to a call: the objects its handles refer to, and the other end of its pipe when it has no handle to
it any more. -/
def Belongs (w : WinWorld) (y : WCreation) (o : Nat) : Prop :=
  (∃ h ∈ y.owned, w⟪h⟫ = some o) ∨
  ∃ m q r, y.phase = .spawning m q r ∧ ∃ i ∈ w.pw.pipes, w⟪m⟫ = some i.server ∧ i.client = some o

/-- After a system call of `y` nothing else belongs to it that was there before. -/
theorem belongs_own {w w' : WinWorld} {y y' : WCreation} (hx : y.phase.over = false) (hw : WinWf w) (ho : OwnOk w y.owned)
    (hok : WPhaseOk w y) (he : y.go w = (w', y')) {o : Nat} (hb : Belongs w' y' o) : Belongs w y o ∨ w.pw.next ≤ o := by
  have hg := wgo_ok hx hw ho hok
  rw [he] at hg
  rcases hb with ⟨h, hm, ho'⟩ | ⟨m, q, r, hph, i, hi, h1, h2⟩
  · rcases hg.moves.objs h o ho' with ⟨k, h1, h2⟩ | h1
    · refine .inl (.inl ⟨k, ?_, h1⟩)
      rcases h2 with rfl | h2
      · rcases hg.moves.fresh k (owned_sub_holds _ k hm) with h3 | h3
        · exact h3
        · rw [h3] at h1; cases h1
      · exact h2
    · exact .inr h1
  · -- only closing the worker's end leads here
    have key : ∃ e, y.phase = .handing e q r ∧ e.mine = m := by
      have nofail : ∀ err l, WPhase.fail err l ≠ .spawning m q r := by
        intro err l; cases l <;> simp [WPhase.fail]
      have noends : ∀ err e, WPhase.failEnds err e ≠ .spawning m q r := fun err e => nofail _ _
      have nocaps : ∀ j k f r' a prof, winAfterCaps j k f r' a prof ≠ .spawning m q r := by
        intro j k f r' a prof
        unfold winAfterCaps
        repeat' split
        all_goals simp
      have noprof : ∀ j k f r' id, winAfterProfile j k f r' id ≠ .spawning m q r := by
        intro j k f r' id
        unfold winAfterProfile
        repeat' split
        all_goals first | simp; done | exact nocaps _ _ _ _ _ _
      have hph' : (y.go w).2.phase = .spawning m q r := by rw [he]; exact hph
      clear hg he hph hok ho
      obtain ⟨c, p, os, ph, chd⟩ := y
      cases ph with
      | handing e q' r' => cases hph'; exact ⟨e, rfl, rfl⟩
      | naming k id =>
        simp only [WCreation.go] at hph'
        split at hph'
        · cases hph'
        · split at hph'
          · simp only [WCreation.at] at hph'
            split at hph' <;> cases hph'
          · cases hph'
      | checking e p1 l =>
        cases l with
        | nil =>
          simp only [WCreation.go, winAfterChecks] at hph'
          split at hph'
          · exact (noends _ _ hph').elim
          · split at hph'
            · exact (noends _ _ hph').elim
            · cases hph'
        | cons raw l =>
          simp only [WCreation.go] at hph'
          split at hph'
          · exact (noends _ _ hph').elim
          · cases hph'
      | failing err l => cases l <;> first | exact (nofail _ _ hph').elim | cases hph'
      | _ =>
        simp only [WCreation.go] at hph'
        revert hph'
        repeat' split
        all_goals first
          | (intro hc; exact (nofail _ _ hc).elim)
          | (intro hc; exact (noends _ _ hc).elim)
          | (intro hc; exact (nocaps _ _ _ _ _ _ hc).elim)
          | (intro hc; exact (noprof _ _ _ _ _ hc).elim)
          | (intro hc; cases hc; done)
          | (intro hc; cases hx)
    obtain ⟨e, hphase, rfl⟩ := key
    unfold WPhaseOk at hok
    rw [hphase] at hok
    obtain ⟨⟨i', hi', c', g1, g2, g3, g4, g5⟩, _⟩ := hok
    have hgo : w' = w.close e.theirs := by
      have : (y.go w).1 = w.close e.theirs := by
        obtain ⟨c, p, os, ph, chd⟩ := y
        cases hphase
        rfl
      rw [he] at this; exact this
    subst hgo
    rw [close_get] at h1
    split at h1
    · cases h1
    · have hii := g5 i (mem_close_pipes.1 hi).1 (.inr (Option.some.inj (h1.symm.trans g1)))
      subst hii
      rw [g2] at h2
      cases h2
      refine .inl (.inl ⟨e.theirs, ?_, g3⟩)
      unfold WCreation.owned
      rw [hphase]
      simp

/-- Nor does what others do change what belongs to `y`. -/
theorem belongs_undisturbed {w w' : WinWorld} {y : WCreation} (hok : WPhaseOk w y) (hu : Undisturbed w w' y.owned) {o : Nat}
    (hb : Belongs w' y o) : Belongs w y o := by
  rcases hb with ⟨h, hm, ho⟩ | ⟨m, q, r, hph, i, hi, h1, h2⟩
  · exact .inl ⟨h, hm, (hu.same h hm).1.symm.trans ho⟩
  · have hm : m ∈ y.owned := by unfold WCreation.owned; rw [hph]; simp
    rw [(hu.same m hm).1] at h1
    unfold WPhaseOk at hok
    rw [hph] at hok
    obtain ⟨th, ch, ⟨_, _, _, i', hi', c', g1, g2, g3, g4, g5, g6, g7, g8, g9⟩, _⟩ := hok
    have := (hu.pipes m hm i' hi' g1 g8 i (.inr (Option.some.inj (h1.symm.trans g1)))).1 hi
    exact .inr ⟨m, q, r, hph, i, this, h1, h2⟩

/-! ## What is true all the time -/

structure WCreatorsInv (ls : List WinCreateEvent) (w : WinCreators) : Prop where
  wf : WinWf w.world
  own : ∀ j x, w.calls j = some x → OwnOk w.world x.owned
  apart : ∀ j k x y, j ≠ k → w.calls j = some x → w.calls k = some y → ∀ h ∈ x.owned, h ∉ y.owned
  ok : ∀ j x, w.calls j = some x → WPhaseOk w.world x
  lent : ∀ j x, w.calls j = some x → x.phase.over = false → ∀ h, DeclaredHandle x.policy x.config h →
    w.world⟪h⟫ ≠ none ∧ ∀ k y, w.calls k = some y → h ∉ y.owned
  made : ∀ j c p os before, .made j c p os before ∈ ls → ∃ x, w.calls j = some x ∧ x.config = c ∧ x.policy = p ∧ x.os = os ∧
    (x.phase.over = false → ∀ h, DeclaredHandle p c h → SameHandle before w.world h) ∧ WChildRight before x
  born : ∀ j x ch, w.calls j = some x → x.child = some ch → ∀ n o, ch.handles.get n = some o → o < w.world.pw.next
  excl : ∀ j k x y ch, j ≠ k → w.calls j = some x → w.calls k = some y → x.child = some ch → HasHandleList ch →
    ∀ n o, ch.handles.get n = some o → ¬ Belongs w.world y o
  holds : ∀ j x, w.calls j = some x → ∀ h ∈ x.holding, HoldsHandle j ls h
  only : ∀ j x, w.calls j = some x → (∀ k, (x.os.rounds k).pid ≠ 0) ∨ x.phase.gaveUp = false → ∀ h, HoldsHandle j ls h → h ∈ x.holding
  idle : ∀ j, w.calls j = none → ∀ h, ¬ HoldsHandle j ls h
  steps : ∀ l1 l2 j before after, ls = l1 ++ .step j before after :: l2 → ∀ h, before⟪h⟫ ≠ none →
    ¬ SameHandle before after h → HoldsHandle j l1 h
  numbers : ∀ j x, w.calls j = some x → ∀ id ∈ x.phase.numbers, TookNumber j ls id
  below : ∀ j id, TookNumber j ls id → id < w.world.start.nextId
  unique : ∀ j k id, TookNumber j ls id → TookNumber k ls id → j = k
  profiles : ∀ l1 l2 j before after, ls = l1 ++ .step j before after :: l2 → ∀ id,
    ¬ (id ∈ after.start.profiles ↔ id ∈ before.start.profiles) → TookNumber j l1 id
  caps : ∀ j x ch, w.calls j = some x → x.child = some ch → ∀ id, .securityCapabilities id ∈ ch.attributes →
    TookNumber j ls id

theorem wholds_step (j k : Nat) (ls : List WinCreateEvent) (b a : WinWorld) (h : BitVec 64) :
    HoldsHandle j (ls ++ [.step k b a]) h ↔
      if k = j then a⟪h⟫ ≠ none ∧ (HoldsHandle j ls h ∨ b⟪h⟫ = none) else HoldsHandle j ls h := by
  simp only [HoldsHandle, List.foldl_append, List.foldl_cons, List.foldl_nil]
  by_cases hk : k = j <;> simp [hk]

theorem wholds_made (j k : Nat) (ls : List WinCreateEvent) (c p os) (b : WinWorld) (h : BitVec 64) :
    HoldsHandle j (ls ++ [.made k c p os b]) h ↔ HoldsHandle j ls h := by
  simp only [HoldsHandle, List.foldl_append, List.foldl_cons, List.foldl_nil]

theorem wput_self (w : WinCreators) (j : Nat) (x : WinWorld × WCreation) : (w.put j x).calls j = some x.2 := by
  simp [WinCreators.put]

theorem wput_other (w : WinCreators) {j k : Nat} (x : WinWorld × WCreation) (h : k ≠ j) :
    (w.put j x).calls k = w.calls k := by
  simp [WinCreators.put, h]

theorem wput_cases {w : WinCreators} {j : Nat} {x : WinWorld × WCreation} (k : Nat) (y : WCreation)
    (h : (w.put j x).calls k = some y) : (k = j ∧ y = x.2) ∨ (k ≠ j ∧ w.calls k = some y) := by
  by_cases hk : k = j
  · rw [hk, wput_self] at h; cases h; exact .inl ⟨hk, rfl⟩
  · rw [wput_other _ _ hk] at h; exact .inr ⟨hk, h⟩

theorem wsnoc_split {ls l1 l2 : List WinCreateEvent} {ev ev' : WinCreateEvent}
    (h : ls ++ [ev] = l1 ++ ev' :: l2) : (l2 = [] ∧ l1 = ls ∧ ev' = ev) ∨ ∃ l3, ls = l1 ++ ev' :: l3 := by
  rcases List.eq_nil_or_concat l2 with rfl | ⟨l3, z, rfl⟩
  · left
    have := List.append_inj' (s₁ := ls) (s₂ := l1) h rfl
    exact ⟨rfl, this.1.symm, by simpa using this.2.symm⟩
  · right
    refine ⟨l3, ?_⟩
    have h' : ls ++ [ev] = (l1 ++ ev' :: l3) ++ [z] := by simpa using h
    exact (List.append_inj' h' rfl).1

theorem took_made (j k : Nat) (ls : List WinCreateEvent) (c p os) (b : WinWorld) (id : Nat) :
    TookNumber j (ls ++ [.made k c p os b]) id ↔ TookNumber j ls id := by
  simp [TookNumber]

theorem took_step (j k : Nat) (ls : List WinCreateEvent) (b a : WinWorld) (id : Nat) :
    TookNumber j (ls ++ [.step k b a]) id ↔
      TookNumber j ls id ∨ (j = k ∧ b.start.nextId = id ∧ id < a.start.nextId) := by
  unfold TookNumber
  constructor
  · rintro ⟨b', a', hm, h1, h2⟩
    rcases List.mem_append.1 hm with hm | hm
    · exact .inl ⟨b', a', hm, h1, h2⟩
    · rw [List.mem_singleton] at hm
      cases hm
      exact .inr ⟨rfl, h1, h2⟩
  · rintro (⟨b', a', hm, h1, h2⟩ | ⟨rfl, h1, h2⟩)
    · exact ⟨b', a', List.mem_append_left _ hm, h1, h2⟩
    · exact ⟨b, a, List.mem_append_right _ (List.mem_singleton.2 rfl), h1, h2⟩

theorem winv_call {ls : List WinCreateEvent} {w : WinCreators} {j : Nat} {c : ProcessConfig} {p : Policy} {os : LaunchOs}
    (hi : WCreatorsInv ls w) (hj : w.calls j = none)
    (hb : ∀ h, DeclaredHandle p c h → w.world⟪h⟫ ≠ none ∧ ∀ k x, w.calls k = some x → h ∉ x.owned) :
    WCreatorsInv (ls ++ [.made j c p os w.world]) (w.put j (w.world, .make c p os)) := by
  have get := wput_cases (w := w) (j := j) (x := (w.world, WCreation.make c p os))
  have mown : (WCreation.make c p os).owned = [] := rfl
  refine ⟨hi.wf, ?_, ?_, ?_, ?_, ?_, ?_, ?_, ?_, ?_, ?_, ?_, ?_, ?_, ?_, ?_, ?_⟩
  · intro k x h
    rcases get k x h with ⟨_, rfl⟩ | ⟨_, h⟩
    · exact ⟨List.nodup_nil, by simp [mown], by simp [Closed, mown]⟩
    · exact hi.own k x h
  · intro a b x y hab hx hy h hh hh'
    rcases get a x hx with ⟨_, rfl⟩ | ⟨_, hx⟩
    · cases hh
    rcases get b y hy with ⟨_, rfl⟩ | ⟨_, hy⟩
    · cases hh'
    exact hi.apart a b x y hab hx hy h hh hh'
  · intro k x h
    rcases get k x h with ⟨_, rfl⟩ | ⟨_, h⟩
    · trivial
    · exact hi.ok k x h
  · intro k x h ho n hn
    rcases get k x h with ⟨_, rfl⟩ | ⟨_, h⟩
    · refine ⟨(hb n hn).1, fun k' y hy => ?_⟩
      rcases get k' y hy with ⟨_, rfl⟩ | ⟨_, hy⟩
      · intro hc; cases hc
      · exact (hb n hn).2 k' y hy
    · obtain ⟨g1, g2⟩ := hi.lent k x h ho n hn
      refine ⟨g1, fun k' y hy => ?_⟩
      rcases get k' y hy with ⟨_, rfl⟩ | ⟨_, hy⟩
      · intro hc; cases hc
      · exact g2 k' y hy
  · intro k c' p' os' before hm
    rcases List.mem_append.1 hm with hm | hm
    · obtain ⟨x, h1, h2⟩ := hi.made k c' p' os' before hm
      have hk : k ≠ j := by rintro rfl; rw [hj] at h1; cases h1
      exact ⟨x, by rw [wput_other _ _ hk]; exact h1, h2⟩
    · rw [List.mem_singleton] at hm
      cases hm
      refine ⟨_, wput_self _ _ _, rfl, rfl, rfl, fun _ _ _ => ⟨rfl, .rfl⟩, ?_⟩
      intro ch h; cases h
  · intro k x ch h hch
    rcases get k x h with ⟨_, rfl⟩ | ⟨_, h⟩
    · cases hch
    · exact hi.born k x ch h hch
  · intro a b x y ch hab hx hy hch hl n o hn
    rcases get a x hx with ⟨_, rfl⟩ | ⟨_, hx⟩
    · cases hch
    rcases get b y hy with ⟨_, rfl⟩ | ⟨_, hy⟩
    · rintro (⟨h, hh, _⟩ | ⟨m, q, r, hph, _⟩)
      · cases hh
      · cases hph
    exact hi.excl a b x y ch hab hx hy hch hl n o hn
  · intro k x h n hn
    rw [wholds_made]
    rcases get k x h with ⟨_, rfl⟩ | ⟨_, h⟩
    · cases hn
    · exact hi.holds k x h n hn
  · intro k x h hp n hn
    rw [wholds_made] at hn
    rcases get k x h with ⟨rfl, rfl⟩ | ⟨_, h⟩
    · exact absurd hn (hi.idle k hj n)
    · exact hi.only k x h hp n hn
  · intro k h n
    rw [wholds_made]
    by_cases hk : k = j
    · rw [hk, wput_self] at h; cases h
    · rw [wput_other _ _ hk] at h
      exact hi.idle k h n
  · intro l1 l2 k b a h
    rcases wsnoc_split h with ⟨_, _, hc⟩ | ⟨l3, h⟩
    · cases hc
    · exact hi.steps l1 l3 k b a h
  · intro k x h id hid
    rw [took_made]
    rcases get k x h with ⟨_, rfl⟩ | ⟨_, h⟩
    · cases hid
    · exact hi.numbers k x h id hid
  · intro k id h
    rw [took_made] at h
    exact hi.below k id h
  · intro a b id h h'
    rw [took_made] at h h'
    exact hi.unique a b id h h'
  · intro l1 l2 k b a h
    rcases wsnoc_split h with ⟨_, _, hc⟩ | ⟨l3, h⟩
    · cases hc
    · exact hi.profiles l1 l3 k b a h
  · intro k x ch h hch id hid
    rw [took_made]
    rcases get k x h with ⟨_, rfl⟩ | ⟨_, h⟩
    · cases hch
    · exact hi.caps k x ch h hch id hid

theorem mem_capIds {a : List ProcAttr} {id : Nat} (h : .securityCapabilities id ∈ a) : id ∈ capIds a :=
  List.mem_filterMap.2 ⟨_, h, rfl⟩

theorem wgo_gaveUp (w : WinWorld) (x : WCreation) (h : (x.go w).2.phase.gaveUp = false) : x.phase.gaveUp = false := by
  obtain ⟨c, p, os, ph, chd⟩ := x
  cases ph with
  | failing err l =>
    cases l with
    | nil => exact h
    | cons a l => have := fail_gaveUp err l; simp only [WCreation.go, WCreation.at] at h; rw [this] at h; cases h
  | failed err => exact h
  | _ => rfl

theorem winv_go {ls : List WinCreateEvent} {w : WinCreators} {j : Nat} {x : WCreation}
    (hi : WCreatorsInv ls w) (hj : w.calls j = some x) (hx : x.phase.over = false) :
    WCreatorsInv (ls ++ [.step j w.world (x.go w.world).1]) (w.put j (x.go w.world)) := by
  have hg := wgo_ok hx hi.wf (hi.own j x hj) (hi.ok j x hj)
  have hc := wgo_child w.world x
  have hn := wgo_numbers w.world x
  have hpr := wgo_profiles w.world x
  have hgu := wgo_gaveUp w.world x
  have hbe : ∀ o, Belongs (x.go w.world).1 (x.go w.world).2 o → Belongs w.world x o ∨ w.world.pw.next ≤ o :=
    fun o => belongs_own hx hi.wf (hi.own j x hj) (hi.ok j x hj) rfl
  generalize x.go w.world = g at hg hc hn hpr hgu hbe
  obtain ⟨w', x'⟩ := g
  simp only at hg hc hn hpr hgu hbe ⊢
  have get := wput_cases (w := w) (j := j) (x := (w', x'))
  have hsub := owned_sub_holds x'
  have hnew : ∀ k y, k ≠ j → w.calls k = some y → ∀ h ∈ x'.owned, h ∉ y.owned := by
    intro k y hk hy h hh hm
    rcases hg.moves.fresh h (hsub h hh) with h1 | h1
    · exact hi.apart j k x y (Ne.symm hk) hj hy h h1 hm
    · exact (hi.own k y hy).present h hm h1
  have hund : ∀ k y, k ≠ j → w.calls k = some y → Undisturbed w.world w' y.owned := by
    intro k y hk hy
    exact hg.moves.undisturbed hi.wf (hi.own k y hy) fun h hh hm => hi.apart k j y x hk hy hj h hh hm
  have hlent : ∀ k y, w.calls k = some y → y.phase.over = false → ∀ h, DeclaredHandle y.policy y.config h →
      w'⟪h⟫ ≠ none ∧ ∀ k' z, (w.put j (w', x')).calls k' = some z → h ∉ z.owned := by
    intro k y hy ho h hd
    obtain ⟨g2, g3⟩ := hi.lent k y hy ho h hd
    have e := hg.moves.keep h g2 (g3 j x hj)
    refine ⟨by rw [e.1]; exact g2, fun k' z hz hm => ?_⟩
    rcases get k' z hz with ⟨_, rfl⟩ | ⟨_, hz⟩
    · rcases hg.moves.fresh h (hsub h hm) with h1 | h1
      · exact g3 j x hj h1
      · exact g2 h1
    · exact g3 k' z hz hm
  have hown : ∀ k y, (w.put j (w', x')).calls k = some y → OwnOk w' y.owned := by
    intro k y h
    rcases get k y h with ⟨_, rfl⟩ | ⟨hk, h⟩
    · exact owned_of_holds hg.moves.own
    · have hu := hund k y hk h
      have ho := hi.own k y h
      refine ⟨ho.nodup, ?_, ?_⟩
      · intro n hn; rw [(hu.same n hn).1]; exact ho.present n hn
      · intro n hn m hm
        rw [(hu.same n hn).1] at hm
        obtain ⟨o, hno⟩ := Option.ne_none_iff_exists'.1 (ho.present n hn)
        rw [hno] at hm
        rcases hg.moves.objs m o hm with ⟨m0, h1, h2⟩ | h1
        · have hm0 := ho.closed n hn m0 (h1.trans hno.symm)
          rcases h2 with rfl | h2
          · exact hm0
          · exact absurd h2 (hi.apart k j y x hk h hj m0 hm0)
        · exact absurd (hi.wf.objects n o hno) (by omega)
  -- the handles of a process created now
  have hchild : ∀ ch, x'.child = some ch → x.child = some ch ∨
      ∃ jb k f a prof, x.phase = .creating jb k f a prof ∧ ch = w.world.newChild x.os jb a ∧ WJobOk w.world x jb ∧
        ListsFor jb a := by
    intro ch hch
    rcases hc ch hch with h | ⟨jb, k, f, a, prof, hph, he⟩
    · exact .inl h
    · have := hi.ok j x hj
      unfold WPhaseOk at this
      rw [hph] at this
      exact .inr ⟨jb, k, f, a, prof, hph, he, this⟩
  refine ⟨hg.moves.wf, hown, ?_, ?_, ?_, ?_, ?_, ?_, ?_, ?_, ?_, ?_, ?_, ?_, ?_, ?_, ?_⟩
  · intro a b y z hab hy hz h hh
    rcases get a y hy with ⟨ha, rfl⟩ | ⟨ha, hy⟩
    · rcases get b z hz with ⟨hb, rfl⟩ | ⟨hb, hz⟩
      · exact absurd (ha.trans hb.symm) hab
      · exact hnew b z hb hz h hh
    · rcases get b z hz with ⟨hb, hz'⟩ | ⟨hb, hz⟩
      · rw [hz']
        exact fun hc => hnew a y ha hy h hc hh
      · exact hi.apart a b y z hab hy hz h hh
  · intro k y h
    show WPhaseOk w' y
    rcases get k y h with ⟨_, rfl⟩ | ⟨hk, h⟩
    · exact hg.ok
    · exact (hi.ok k y h).congr (hund k y hk h)
  · intro k y h ho n hd
    rcases get k y h with ⟨hk, rfl⟩ | ⟨hk, h⟩
    · rw [hg.policy, hg.config] at hd
      exact hlent j x hj hx n hd
    · exact hlent k y h ho n hd
  · intro k c p os before hm
    have hm' : .made k c p os before ∈ ls := by
      rcases List.mem_append.1 hm with hm | hm
      · exact hm
      · rw [List.mem_singleton] at hm; cases hm
    obtain ⟨y, h1, h2, h3, h4, h5, h6⟩ := hi.made k c p os before hm'
    have hsame : y.phase.over = false → ∀ h, DeclaredHandle p c h → SameHandle before w' h := by
      intro ho h hd
      obtain ⟨g2, g3⟩ := hi.lent k y h1 ho h (by rw [h2, h3]; exact hd)
      have e := hg.moves.keep h g2 (g3 j x hj)
      have e0 := h5 ho h hd
      exact ⟨e.1.trans e0.1, e.2.trans e0.2⟩
    by_cases hk : k = j
    · subst hk
      have hxy : y = x := by rw [hj] at h1; cases h1; rfl
      subst hxy
      refine ⟨x', wput_self _ _ _, hg.config.trans h2, hg.policy.trans h3, hg.os.trans h4, fun _ => hsame hx, ?_⟩
      intro ch hch hl henv
      rw [hg.config] at henv ⊢
      rw [hg.policy]
      rcases hchild ch hch with h | ⟨jb, k', f, a, prof, hph, rfl, hjb, hla⟩
      · exact h6 ch h hl henv
      · obtain ⟨i, hi', o, g1, g2, g3, g4, g5⟩ := hjb.joined
        refine ⟨jb.ends.theirs, o, ?_, ?_, ?_⟩
        · intro hd
          refine (hi.lent k y hj hx _ hd).2 k y hj ?_
          unfold WCreation.owned
          rw [hph]
          simp
        · show winReadIpcHandle (envBlock (mergeEnv y.os.sys jb.config.envp)) = _
          rw [hjb.config]
          exact read_channel _ _ _ henv
        · intro h o'
          rw [newChild_handles hjb hla hl h o', g3]
          constructor
          · rintro (⟨rfl, he⟩ | ⟨hd, hin, hget⟩)
            · exact .inl ⟨rfl, (Option.some.inj he).symm⟩
            · have e := h5 hx h (by rw [← h2, ← h3]; exact hd)
              exact .inr ⟨hd, e.2.1 hin, e.1.symm.trans hget⟩
          · rintro (⟨rfl, rfl⟩ | ⟨hd, hin, hget⟩)
            · exact .inl ⟨rfl, rfl⟩
            · have e := h5 hx h (by rw [← h2, ← h3]; exact hd)
              exact .inr ⟨hd, e.2.2 hin, e.1.trans hget⟩
    · exact ⟨y, by rw [wput_other _ _ hk]; exact h1, h2, h3, h4, hsame, h6⟩
  · intro k y ch h hch n o hno
    show o < w'.pw.next
    rcases get k y h with ⟨_, rfl⟩ | ⟨hk, h⟩
    · rcases hchild ch hch with h | ⟨jb, k', f, a, prof, hph, rfl, hjb, hla⟩
      · exact Nat.lt_of_lt_of_le (hi.born j x ch hj h n o hno) hg.moves.next
      · exact Nat.lt_of_lt_of_le (hi.wf.objects _ _ ((childHandles_get _ _ _ _).1 hno).2.2) hg.moves.next
    · exact Nat.lt_of_lt_of_le (hi.born k y ch h hch n o hno) hg.moves.next
  · intro a b y z ch hab hy hz hch hl n o hno hbel
    rcases get a y hy with ⟨ha, rfl⟩ | ⟨ha, hya⟩
    · rcases get b z hz with ⟨hb, rfl⟩ | ⟨hb, hz⟩
      · exact hab (ha.trans hb.symm)
      · have hbel' := belongs_undisturbed (hi.ok b z hz) (hund b z hb hz) hbel
        rcases hchild ch hch with h | ⟨jb, k', f, at_, prof, hph, rfl, hjb, hla⟩
        · exact hi.excl j b x z ch (fun e => hb e.symm) hj hz h hl n o hno hbel'
        · -- created now: its handles are this call's or declared, so not those of another call
          have hxown : jb.ends.theirs ∈ x.owned := by unfold WCreation.owned; rw [hph]; simp
          have hnz : n ∉ z.owned ∧ w.world⟪n⟫ = some o := by
            rcases (newChild_handles hjb hla hl n o).1 hno with ⟨rfl, h2⟩ | ⟨h1, _, h2⟩
            · exact ⟨hi.apart j b x z (fun e => hb e.symm) hj hz _ hxown, h2⟩
            · exact ⟨(hi.lent j x hj hx n h1).2 b z hz, h2⟩
          rcases hbel' with ⟨h, hh, ho⟩ | ⟨m, q, r, hphz, i, hii, h1, h2⟩
          · exact hnz.1 ((hi.own b z hz).closed h hh n (hnz.2.trans ho.symm))
          · have hok := hi.ok b z hz
            unfold WPhaseOk at hok
            rw [hphz] at hok
            obtain ⟨th, ch', ⟨_, _, _, i', hi', c', g1, g2, g3, g4, g5, g6, g7, g8, g9⟩, _⟩ := hok
            have hii' := g8 i hii (.inr (Option.some.inj (h1.symm.trans g1)))
            subst hii'
            rw [g2] at h2
            cases h2
            exact absurd (g9 n hnz.2) (by simp)
    · have hlt := hi.born a y ch hya hch n o hno
      rcases get b z hz with ⟨hb, rfl⟩ | ⟨hb, hz⟩
      · rcases hbe o hbel with h | h
        · exact hi.excl a j y x ch ha hya hj hch hl n o hno h
        · omega
      · exact hi.excl a b y z ch hab hya hz hch hl n o hno
          (belongs_undisturbed (hi.ok b z hz) (hund b z hb hz) hbel)
  · intro k y h n hn'
    rw [wholds_step]
    rcases get k y h with ⟨hk, rfl⟩ | ⟨hk, h⟩
    · rw [if_pos hk.symm]
      refine ⟨hg.moves.own.present n hn', ?_⟩
      rcases hg.moves.fresh n hn' with h' | h'
      · exact .inl (hk ▸ hi.holds j x hj n (owned_sub_holds _ n h'))
      · exact .inr h'
    · rw [if_neg (Ne.symm hk)]
      exact hi.holds k y h n hn'
  · intro k y h hp n hn'
    rw [wholds_step] at hn'
    rcases get k y h with ⟨hk, rfl⟩ | ⟨hk, h⟩
    · rw [if_pos hk.symm] at hn'
      rw [hg.os] at hp
      rcases hn'.2 with h' | h'
      · have := hi.only j x hj (hp.imp id fun h => hgu h) n (hk ▸ h')
        rw [holds_of_not_over hx] at this
        exact hg.drops hp n this hn'.1
      · exact hg.moves.gain n h' hn'.1
    · rw [if_neg (Ne.symm hk)] at hn'
      exact hi.only k y h hp n hn'
  · intro k h n
    by_cases hk : k = j
    · rw [hk, wput_self] at h; cases h
    · rw [wput_other _ _ hk] at h
      rw [wholds_step, if_neg (Ne.symm hk)]
      exact hi.idle k h n
  · intro l1 l2 k b a h n hb ha
    rcases wsnoc_split h with ⟨_, h1, h2⟩ | ⟨l3, h⟩
    · cases h2
      rw [h1]
      apply Classical.byContradiction
      intro hno
      refine ha (hg.moves.keep n hb fun hm => hno ?_)
      exact hi.holds j x hj n (owned_sub_holds _ n hm)
    · exact hi.steps l1 l3 k b a h n hb ha
  · intro k y h id hid
    rw [took_step]
    rcases get k y h with ⟨hk, rfl⟩ | ⟨hk, h⟩
    · rcases hn id hid with h1 | h1
      · exact .inl (hk ▸ hi.numbers j x hj id h1)
      · exact .inr ⟨hk, h1⟩
    · exact .inl (hi.numbers k y h id hid)
  · intro k id h
    show id < w'.start.nextId
    rw [took_step] at h
    rcases h with h | ⟨_, _, h⟩
    · exact Nat.lt_of_lt_of_le (hi.below k id h) hg.moves.ids
    · exact h
  · intro a b id h h'
    rw [took_step] at h h'
    rcases h with h | ⟨h1, h2, _⟩ <;> rcases h' with h' | ⟨h3, h4, _⟩
    · exact hi.unique a b id h h'
    · have := hi.below a id h; omega
    · have := hi.below b id h'; omega
    · rw [h1, h3]
  · intro l1 l2 k b a h id hne
    rcases wsnoc_split h with ⟨_, h1, h2⟩ | ⟨l3, h⟩
    · cases h2
      rw [h1]
      apply Classical.byContradiction
      intro hno
      exact hne (hpr id fun hm => hno (hi.numbers j x hj id hm))
    · exact hi.profiles l1 l3 k b a h id hne
  · intro k y ch h hch id hid
    rw [took_step]
    refine .inl ?_
    rcases get k y h with ⟨hk, rfl⟩ | ⟨hk, h⟩
    · rw [hk]
      rcases hchild ch hch with h | ⟨jb, k', f, a, prof, hph, rfl, hjb, hla⟩
      · exact hi.caps j x ch hj h id hid
      · refine hi.numbers j x hj id ?_
        rw [hph]
        exact List.mem_append_right _ (mem_capIds hid)
    · exact hi.caps k y ch h hch id hid

theorem winv_other {ls : List WinCreateEvent} {w : WinCreators} {w' : WinWorld} (hi : WCreatorsInv ls w)
    (ho : WinOther (fun h => ∃ j x, w.calls j = some x ∧ h ∈ x.owned)
      (fun h => ∃ j x, w.calls j = some x ∧ x.phase.over = false ∧ DeclaredHandle x.policy x.config h) w.world w') :
    WCreatorsInv ls { w with world := w' } := by
  have hund : ∀ k y, w.calls k = some y → Undisturbed w.world w' y.owned := fun k y hy =>
    ho.undisturbed fun h hh => ⟨k, y, hy, hh⟩
  refine ⟨⟨ho.keys, ho.inheritable, ho.objects, ho.servers, ho.single⟩, ?_, hi.apart, ?_, ?_, ?_, ?_, ?_, hi.holds,
    hi.only, hi.idle, hi.steps, hi.numbers, ?_, hi.unique, hi.profiles, hi.caps⟩
  · intro k y h
    have ok := hi.own k y h
    have hu := hund k y h
    refine ⟨ok.nodup, ?_, ?_⟩
    · intro n hn; show w'⟪n⟫ ≠ none; rw [(hu.same n hn).1]; exact ok.present n hn
    · intro n hn m hm
      change w'⟪m⟫ = w'⟪n⟫ at hm
      rw [(hu.same n hn).1] at hm
      exact ok.closed n hn m (ho.own n ⟨k, y, h, hn⟩ m hm)
  · intro k y h
    exact (hi.ok k y h).congr (hund k y h)
  · intro k y h hov n hn
    have := hi.lent k y h hov n hn
    refine ⟨?_, this.2⟩
    show w'⟪n⟫ ≠ none
    rw [(ho.kept n (.inr ⟨k, y, h, hov, hn⟩)).1]
    exact this.1
  · intro k c p os before hm
    obtain ⟨y, h1, h2, h3, h4, h5, h6⟩ := hi.made k c p os before hm
    refine ⟨y, h1, h2, h3, h4, ?_, h6⟩
    intro hov h hd
    have e0 := h5 hov h hd
    have e := ho.kept h (.inr ⟨k, y, h1, hov, by rw [h2, h3]; exact hd⟩)
    exact ⟨e.1.trans e0.1, e.2.trans e0.2⟩
  · intro k y ch h hch n o hn
    exact Nat.lt_of_lt_of_le (hi.born k y ch h hch n o hn) ho.next
  · intro a b y z ch hab hy hz hch hl n o hn hbel
    exact hi.excl a b y z ch hab hy hz hch hl n o hn (belongs_undisturbed (hi.ok b z hz) (hund b z hz) hbel)
  · intro k id h
    exact Nat.lt_of_lt_of_le (hi.below k id h) ho.ids

theorem wexec_inv {w w' : WinCreators} {ls : List WinCreateEvent} (h : NoWinCalls w)
    (he : WinCreatorsExec DeclaredHandle w ls w') : WCreatorsInv ls w' := by
  induction he with
  | start =>
    have no : ∀ j x, w.calls j = some x → False := by intro j x hj; rw [h.calls] at hj; cases hj
    have not : ∀ j id, TookNumber j [] id → False := by rintro j id ⟨_, _, hm, _⟩; cases hm
    refine ⟨⟨h.keys, h.inheritable, h.objects, h.servers, h.single⟩, fun j x hj => (no j x hj).elim,
      fun j k x y _ hj => (no j x hj).elim, fun j x hj => (no j x hj).elim, fun j x hj => (no j x hj).elim, ?_,
      fun j x ch hj => (no j x hj).elim, fun j k x y ch _ hj => (no j x hj).elim, fun j x hj => (no j x hj).elim,
      fun j x hj => (no j x hj).elim, fun j _ n hn => hn, ?_, fun j x hj => (no j x hj).elim,
      fun j id hj => (not j id hj).elim, fun j k id hj => (not j id hj).elim, ?_, fun j x ch hj => (no j x hj).elim⟩
    · intro j c p os before hm; cases hm
    · intro l1 l2 j b a hl; cases l1 <;> cases hl
    · intro l1 l2 j b a hl; cases l1 <;> cases hl
  | call ls w1 j c p os _ hj hb ih => exact winv_call ih hj hb
  | go ls w1 j x _ hj hx ih => exact winv_go ih hj hx
  | other ls w1 w2 _ ho ih => exact winv_other ih ho

/-! ## The theorems -/

/-- C132. Whatever the other threads of the broker do meanwhile, including creating other workers, a worker process that has
been created with a list of handles has its end of its own channel, which its environment names, and the handles its creator
declared that were inheritable, and nothing else. Missing: when the system refuses the list (`C132_mixed_violated`), and an
environment that itself names the channel (`he`, `C102_other_case_violated`) or has entries that are empty or contain a NUL. -/
theorem C132_handles_partial (w w' : WinCreators) (ls : List WinCreateEvent) (h : NoWinCalls w)
    (hx : WinCreatorsExec DeclaredHandle w ls w') (j : Nat) (c : ProcessConfig) (p : Policy) (os : LaunchOs)
    (before : WinWorld) (hm : .made j c p os before ∈ ls)
    (he : ∀ e ∈ c.envp, e ≠ [] ∧ (0 : UInt8) ∉ e ∧ ¬ NamesChannel e) (x : WCreation) (hj : w'.calls j = some x)
    (ch : WinChild) (hc : x.child = some ch) (hl : HasHandleList ch) : WinStartedRight before c p ch := by
  obtain ⟨y, h1, rfl, rfl, _, _, h6⟩ := (wexec_inv h hx).made j c p os before hm
  rw [hj] at h1
  cases h1
  exact h6 ch hc hl he

/-- C132. Such a worker has no handle to any object that another creation in progress has a handle to. Missing: the list
refused, and (`hp`) another creation that goes on although `GetProcessId` has failed. -/
theorem C132_private_partial (w w' : WinCreators) (ls : List WinCreateEvent) (h : NoWinCalls w)
    (hx : WinCreatorsExec DeclaredHandle w ls w') (j k : Nat) (hjk : j ≠ k) (x y : WCreation) (hj : w'.calls j = some x)
    (hk : w'.calls k = some y) (ho : y.phase.over = false) (hp : ∀ n, (y.os.rounds n).pid ≠ 0) (ch : WinChild)
    (hc : x.child = some ch) (hl : HasHandleList ch) (mine theirs : BitVec 64) (hh : HoldsHandle k ls mine) (o : Nat)
    (hm : w'.world.pw.handles.get mine = some o) : ch.handles.get theirs ≠ some o := by
  intro hg
  have hi := wexec_inv h hx
  refine hi.excl j k x y ch hjk hj hk hc hl theirs o hg (.inl ⟨mine, ?_, hm⟩)
  rw [← holds_of_not_over ho]
  exact hi.only k y hk (.inl hp) mine hh

/-- C132. A system call of a creation changes or closes no handle but those this creation has opened, and makes no other
handle inheritable. -/
theorem C132_own_only (w w' : WinCreators) (l1 l2 : List WinCreateEvent) (j : Nat) (before after : WinWorld)
    (h : NoWinCalls w) (hx : WinCreatorsExec DeclaredHandle w (l1 ++ .step j before after :: l2) w') (n : BitVec 64)
    (hb : before.pw.handles.get n ≠ none)
    (ha : after.pw.handles.get n ≠ before.pw.handles.get n ∨ ¬ (n ∈ after.inheritable ↔ n ∈ before.inheritable)) :
    HoldsHandle j l1 n :=
  (wexec_inv h hx).steps l1 l2 j before after rfl n hb fun hs => ha.elim (fun h => h hs.1) (fun h => h hs.2)

/-- C132. A creation that has failed has closed every handle it had opened. Missing: `GetProcessId` fails for a process just
created, whose handle then stays open (`C132_leak_violated`). -/
theorem C132_failed_partial (w w' : WinCreators) (ls : List WinCreateEvent) (h : NoWinCalls w)
    (hx : WinCreatorsExec DeclaredHandle w ls w') (j : Nat) (x : WCreation) (hj : w'.calls j = some x)
    (hp : ∀ k, (x.os.rounds k).pid ≠ 0) (err : Option BrokerError) (hf : x.phase = .failed err) (n : BitVec 64) :
    ¬ HoldsHandle j ls n := by
  intro hh
  have := (wexec_inv h hx).only j x hj (.inl hp) n hh
  unfold WCreation.holding WCreation.owned at this
  rw [hf] at this
  cases this

/-- C132. A creation that has succeeded has closed every handle it had opened, except its end of the channel, the handle by
which handles are sent to the worker, and that of the process. -/
theorem C132_served (w w' : WinCreators) (ls : List WinCreateEvent) (h : NoWinCalls w)
    (hx : WinCreatorsExec DeclaredHandle w ls w') (j : Nat) (x : WCreation) (hj : w'.calls j = some x)
    (q : WinProcess) (mine remote : BitVec 64) (hf : x.phase = .served q mine remote) (n : BitVec 64) :
    HoldsHandle j ls n ↔ n = mine ∨ n = remote ∨ n = x.os.hProcess := by
  have hi := wexec_inv h hx
  have hh : x.holding = [mine, remote, x.os.hProcess] := by unfold WCreation.holding; rw [hf]
  have : n ∈ x.holding ↔ n = mine ∨ n = remote ∨ n = x.os.hProcess := by rw [hh]; simp
  rw [← this]
  exact ⟨hi.only j x hj (.inr (by rw [hf]; rfl)) n, hi.holds j x hj n⟩

/-- Only creating the thread ends a call well. -/
theorem wgo_served {w : WinWorld} {x : WCreation} (ho : x.phase.over = false) {q : WinProcess} {mine remote : BitVec 64}
    (hs : (x.go w).2.phase = .served q mine remote) : x.phase = .spawning mine q remote ∧ x.go w = (w, x.at (.served q mine remote)) := by
  have nofail : ∀ err l, WPhase.fail err l ≠ .served q mine remote := by
    intro err l; cases l <;> simp [WPhase.fail]
  have noends : ∀ err e, WPhase.failEnds err e ≠ .served q mine remote := fun err e => nofail _ _
  have nocaps : ∀ j k f r' a prof, winAfterCaps j k f r' a prof ≠ .served q mine remote := by
    intro j k f r' a prof
    unfold winAfterCaps
    repeat' split
    all_goals simp
  have noprof : ∀ j k f r' id, winAfterProfile j k f r' id ≠ .served q mine remote := by
    intro j k f r' id
    unfold winAfterProfile
    repeat' split
    all_goals first | simp; done | exact nocaps _ _ _ _ _ _
  obtain ⟨c, p, os, ph, chd⟩ := x
  cases ph with
  | spawning m q' r' =>
    simp only [WCreation.go] at hs ⊢
    split at hs
    · rename_i hsp
      cases hs
      exact ⟨rfl, by rw [if_pos hsp]⟩
    · cases hs
  | naming k id =>
    simp only [WCreation.go] at hs
    split at hs
    · cases hs
    · split at hs
      · simp only [WCreation.at] at hs
        split at hs <;> cases hs
      · cases hs
  | checking e p1 l =>
    cases l with
    | nil =>
      simp only [WCreation.go, winAfterChecks] at hs
      split at hs
      · exact (noends _ _ hs).elim
      · split at hs
        · exact (noends _ _ hs).elim
        · cases hs
    | cons raw l =>
      simp only [WCreation.go] at hs
      split at hs
      · exact (noends _ _ hs).elim
      · cases hs
  | failing err l => cases l <;> first | exact (nofail _ _ hs).elim | cases hs
  | served => cases ho
  | _ =>
    simp only [WCreation.go] at hs
    revert hs
    repeat' split
    all_goals first
      | (intro hc; exact (nofail _ _ hc).elim)
      | (intro hc; exact (noends _ _ hc).elim)
      | (intro hc; exact (nocaps _ _ _ _ _ _ hc).elim)
      | (intro hc; exact (noprof _ _ _ _ _ hc).elim)
      | (intro hc; cases hc; done)

/-- C132. When a creation succeeds, its end of the channel and that of the worker are, at that moment, the two ends of one pipe;
the broker has no handle to the worker's end, and no other worker created with a list of handles has a handle to either; the
other handles the creation leaves refer to the process it has created. Missing: an environment that itself names the channel
(`he`, as in `C132_handles_partial`), and other workers created without a list of handles, which may well have one
(`C132_mixed_violated`). -/
theorem C132_channel_partial (w w' : WinCreators) (ls : List WinCreateEvent) (h : NoWinCalls w)
    (hx : WinCreatorsExec DeclaredHandle w ls w') (j : Nat) (x : WCreation) (hj : w'.calls j = some x)
    (ho : x.phase.over = false) (q : WinProcess) (mine remote : BitVec 64)
    (hs : (x.go w'.world).2.phase = .served q mine remote)
    (he : ∀ e ∈ x.config.envp, e ≠ [] ∧ (0 : UInt8) ∉ e ∧ ¬ NamesChannel e) :
    ∃ ch, x.child = some ch ∧
      (x.go w'.world).1.pw.handles.get remote = some ch.object ∧
      (x.go w'.world).1.pw.handles.get x.os.hProcess = some ch.object ∧
      ∃ i ∈ (x.go w'.world).1.pw.pipes, ∃ client chan, i.client = some client ∧
        (x.go w'.world).1.pw.handles.get mine = some i.server ∧
        winReadIpcHandle ch.environment = some chan ∧ ch.handles.get chan = some client ∧
        (∀ n, (x.go w'.world).1.pw.handles.get n ≠ some client) ∧
        ∀ k y ch', k ≠ j → w'.calls k = some y → y.child = some ch' → HasHandleList ch' →
          ∀ n, ch'.handles.get n ≠ some client ∧ ch'.handles.get n ≠ some i.server := by
  have hi := wexec_inv h hx
  obtain ⟨hph, hgo⟩ := wgo_served ho hs
  rw [hgo]
  have hok := hi.ok j x hj
  unfold WPhaseOk at hok
  rw [hph] at hok
  obtain ⟨th, ch, ⟨c1, c2, g0, i, hi', o, g1, g2, g3, g4, g5, g6, g7, g8, g9⟩, hr⟩ := hok
  refine ⟨ch, c1, hr, g0, i, hi', o, th, g2, g1, ?_, g3, fun n hn => absurd (g9 n hn) (by simp), ?_⟩
  · rw [c2]; exact read_channel _ _ _ he
  · intro k y ch' hk hy hch hl n
    refine ⟨fun hn => ?_, fun hn => ?_⟩
    · exact hi.excl k j y x ch' hk hy hj hch hl n o hn (.inr ⟨mine, q, remote, hph, i, hi', g1, g2⟩)
    · refine hi.excl k j y x ch' hk hy hj hch hl n _ hn (.inl ⟨mine, ?_, g1⟩)
      unfold WCreation.owned; rw [hph]; simp

/-- C132. No two creations use the same number for an AppContainer profile. -/
theorem C132_numbers (w w' : WinCreators) (ls : List WinCreateEvent) (h : NoWinCalls w)
    (hx : WinCreatorsExec DeclaredHandle w ls w') (j k : Nat) (id : Nat) (hj : TookNumber j ls id) (hk : TookNumber k ls id) :
    j = k :=
  (wexec_inv h hx).unique j k id hj hk

/-- C132. A creation creates and deletes only profiles whose numbers it has taken before. -/
theorem C132_profiles (w w' : WinCreators) (l1 l2 : List WinCreateEvent) (j : Nat) (before after : WinWorld)
    (h : NoWinCalls w) (hx : WinCreatorsExec DeclaredHandle w (l1 ++ .step j before after :: l2) w') (id : Nat)
    (hne : ¬ (id ∈ after.start.profiles ↔ id ∈ before.start.profiles)) : TookNumber j l1 id :=
  (wexec_inv h hx).profiles l1 l2 j before after rfl id hne

/-- C132. A worker in an AppContainer is in that of a number its own creation has taken. -/
theorem C132_container (w w' : WinCreators) (ls : List WinCreateEvent) (h : NoWinCalls w)
    (hx : WinCreatorsExec DeclaredHandle w ls w') (j : Nat) (x : WCreation) (hj : w'.calls j = some x) (ch : WinChild)
    (hc : x.child = some ch) (id : Nat) (ha : .securityCapabilities id ∈ ch.attributes) : TookNumber j ls id :=
  (wexec_inv h hx).caps j x ch hj hc id ha

/-! ## A call returns -/

/-- An upper bound of the system calls a call still makes. -/
def WPhase.weight : WPhase → Nat
  | .naming _ _ => 56
  | .opening _ _ _ => 55
  | .connecting _ _ => 54
  | .moding _ _ => 53
  | .marking _ => 52
  | .checking _ _ left => 47 + left.length
  | .locating _ => 46
  | .listing _ _ f => 15 + 6 * f.weight
  | .numbering _ _ f => 14 + 6 * f.weight
  | .profiling _ _ f _ => 13 + 6 * f.weight
  | .deleting _ _ f _ => 12 + 6 * f.weight
  | .recreating _ _ f _ => 11 + 6 * f.weight
  | .creating _ _ f _ _ => 10 + 6 * f.weight
  | .identifying _ _ _ => 9
  | .attaching _ _ => 8
  | .handing _ _ _ => 7
  | .spawning _ _ _ => 6
  | .failing _ l => l.length + 1
  | .failed _ | .panicked | .served _ _ _ => 0

theorem weight_fail (err : Option BrokerError) (l : List WLeft) : (WPhase.fail err l).weight ≤ l.length + 1 := by
  cases l <;> simp [WPhase.fail, WPhase.weight]

theorem weight_afterCaps (j : WJob) (k : Nat) (f : WinFlags) (r : WinRound) (l : List ProcAttr) (prof : Option Nat) :
    (winAfterCaps j k f r l prof).weight < 11 + 6 * f.weight := by
  obtain ⟨a, b, c, d, e⟩ := f
  unfold winAfterCaps
  split
  · rename_i h
    have := (trySet_none h).1
    simp only at this
    subst this
    simp [WPhase.weight, WinFlags.weight]; omega
  · split
    · rename_i h
      have := (trySet_none h).1
      simp only at this
      subst this
      simp [WPhase.weight, WinFlags.weight]; omega
    · split
      · rename_i h
        have := (trySet_none h).1
        simp only at this
        subst this
        simp [WPhase.weight, WinFlags.weight]; omega
      · simp [WPhase.weight]

theorem weight_afterProfile (j : WJob) (k : Nat) (f : WinFlags) (hf : f.appContainer = true) (r : WinRound) (id : Nat) :
    (winAfterProfile j k f r id).weight < 11 + 6 * f.weight := by
  unfold winAfterProfile
  split
  · obtain ⟨a, b, c, d, e⟩ := f
    simp only at hf
    subst hf
    simp [WPhase.weight, WinFlags.weight]; omega
  · split
    · rename_i h
      have := (trySet_none h).1
      obtain ⟨a, b, c, d, e⟩ := f
      simp only at this hf
      subst this hf
      simp [WPhase.weight, WinFlags.weight]; omega
    · exact weight_afterCaps ..

theorem weight_head (f : WinFlags) : f.head.weight = f.weight := by
  obtain ⟨a, b, c, d, e⟩ := f
  cases a <;> rfl

/-- Profiles are made only for an AppContainer, whose flag is still set. -/
def WPhase.contained : WPhase → Prop
  | .numbering _ _ f | .profiling _ _ f _ | .deleting _ _ f _ | .recreating _ _ f _ => f.appContainer = true
  | _ => True

theorem contained_fail (err : Option BrokerError) (l : List WLeft) : (WPhase.fail err l).contained := by
  cases l <;> trivial

theorem contained_afterCaps (j : WJob) (k : Nat) (f : WinFlags) (r : WinRound) (l : List ProcAttr) (prof : Option Nat) :
    (winAfterCaps j k f r l prof).contained := by
  unfold winAfterCaps
  split
  · trivial
  · split
    · trivial
    · split <;> trivial

theorem contained_afterProfile (j : WJob) (k : Nat) (f : WinFlags) (r : WinRound) (id : Nat) :
    (winAfterProfile j k f r id).contained := by
  unfold winAfterProfile
  split
  · trivial
  · split
    · trivial
    · exact contained_afterCaps ..

theorem contained_go (w : WinWorld) (x : WCreation) (h : x.phase.contained) : (x.go w).2.phase.contained := by
  obtain ⟨c, p, os, ph, chd⟩ := x
  cases ph with
  | naming k id =>
    simp only [WCreation.go]
    split
    · trivial
    · split
      · simp only [WCreation.at]; split <;> trivial
      · trivial
  | opening k name mine =>
    simp only [WCreation.go]
    split
    · dsimp only [WCreation.at]; exact contained_fail ..
    · trivial
  | connecting k e =>
    simp only [WCreation.go]
    split
    · trivial
    · split
      · dsimp only [WCreation.at]; exact contained_fail ..
      · trivial
  | moding k e =>
    simp only [WCreation.go]
    split
    · dsimp only [WCreation.at]; exact contained_fail ..
    · trivial
  | marking e =>
    simp only [WCreation.go]
    split
    · trivial
    · dsimp only [WCreation.at]; exact contained_fail ..
  | checking e p left =>
    cases left with
    | nil =>
      simp only [WCreation.go, WCreation.at, winAfterChecks]
      split
      · exact contained_fail ..
      · split
        · exact contained_fail ..
        · trivial
    | cons raw left =>
      simp only [WCreation.go]
      split
      · dsimp only [WCreation.at]; exact contained_fail ..
      · trivial
  | locating j =>
    simp only [WCreation.go]
    split
    · trivial
    · dsimp only [WCreation.at]; exact contained_fail ..
  | listing j k f =>
    simp only [WCreation.go]
    split
    · split
      · rename_i hf
        split
        · show f.head.appContainer = true
          unfold WinFlags.head; rw [if_pos hf]; exact hf
        · trivial
      · exact contained_afterCaps ..
    · dsimp only [WCreation.at]; exact contained_fail ..
  | numbering j k f => exact h
  | profiling j k f id =>
    simp only [WCreation.go]
    split
    · exact h
    · split
      · exact contained_afterProfile ..
      · trivial
  | deleting j k f id => exact h
  | recreating j k f id =>
    simp only [WCreation.go]
    split
    · exact contained_afterProfile ..
    · trivial
  | creating j k f at_ prof =>
    simp only [WCreation.go]
    split
    · trivial
    · split
      · trivial
      · dsimp only [WCreation.at]; exact contained_fail ..
  | identifying e k prof =>
    simp only [WCreation.go]
    split
    · dsimp only [WCreation.at]; exact contained_fail ..
    · trivial
  | attaching e q =>
    simp only [WCreation.go]
    split
    · dsimp only [WCreation.at]; exact contained_fail ..
    · trivial
  | handing e q r => trivial
  | spawning m q r =>
    simp only [WCreation.go]
    split
    · trivial
    · dsimp only [WCreation.at]; exact contained_fail ..
  | failing err l =>
    cases l with
    | nil => trivial
    | cons a l => simp only [WCreation.go, WCreation.at]; exact contained_fail ..
  | failed err => trivial
  | panicked => trivial
  | served q m r => trivial

/-- Someone is connected to the pipe a call waits for. -/
theorem joined_connected {w : WinWorld} {e : WEnds} (h : JoinedIs w e) : w.pw.connected e.mine = true := by
  obtain ⟨i, hi, c, h1, h2, _⟩ := h
  unfold PipeWorld.connected
  rw [List.any_eq_true]
  refine ⟨i, hi, ?_⟩
  rw [h1, h2]
  simp

theorem dropsOf_length (os : LaunchOs) (q : WinProcess) : (dropsOf os q).length ≤ 2 := by
  obtain ⟨pid, prof⟩ := q
  unfold dropsOf
  cases os.supported <;> cases prof <;> simp

/-- Every system call of a call that has its pipe brings it nearer to its end. -/
theorem weight_go {w : WinWorld} {x : WCreation} (h : x.phase.contained) (ho : x.phase.over = false) (hok : WPhaseOk w x)
    (hn : ∀ k id, x.phase ≠ .naming k id) : (x.go w).2.phase.weight < x.phase.weight := by
  obtain ⟨c, p, os, ph, chd⟩ := x
  have ends : ∀ (err : Option BrokerError) (e : WEnds), (WPhase.failEnds err e).weight ≤ 3 := fun err e => weight_fail _ _
  cases ph with
  | naming k id => exact (hn k id rfl).elim
  | opening k name mine =>
    simp only [WCreation.go]
    split
    · dsimp only [WCreation.at]; exact Nat.lt_of_le_of_lt (weight_fail _ _) (by simp [WPhase.weight])
    · simp [WCreation.at, WPhase.weight]
  | connecting k e =>
    simp only [WCreation.go]
    rw [if_pos (joined_connected hok)]
    simp [WCreation.at, WPhase.weight]
  | moding k e =>
    simp only [WCreation.go]
    split
    · dsimp only [WCreation.at]; exact Nat.lt_of_le_of_lt (ends _ _) (by simp [WPhase.weight])
    · simp [WCreation.at, WPhase.weight]
  | marking e =>
    simp only [WCreation.go]
    split
    · have : ([c.stdin, c.stdout, c.stderr].filterMap id).length ≤ 3 :=
        List.length_filterMap_le id [c.stdin, c.stdout, c.stderr]
      simp only [WCreation.at, WPhase.weight, List.length_cons]
      omega
    · dsimp only [WCreation.at]; exact Nat.lt_of_le_of_lt (ends _ _) (by simp [WPhase.weight])
  | checking e p left =>
    cases left with
    | nil =>
      simp only [WCreation.go, WCreation.at, winAfterChecks]
      split
      · exact Nat.lt_of_le_of_lt (ends _ _) (by simp [WPhase.weight])
      · split
        · exact Nat.lt_of_le_of_lt (ends _ _) (by simp [WPhase.weight])
        · simp [WPhase.weight]
    | cons raw left =>
      simp only [WCreation.go]
      split
      · dsimp only [WCreation.at]; exact Nat.lt_of_le_of_lt (ends _ _) (by simp [WPhase.weight]; omega)
      · simp [WCreation.at, WPhase.weight]
  | locating j =>
    simp only [WCreation.go]
    split
    · simp [WCreation.at, WPhase.weight, WinFlags.weight]
    · dsimp only [WCreation.at]; exact Nat.lt_of_le_of_lt (ends _ _) (by simp [WPhase.weight])
  | listing j k f =>
    simp only [WCreation.go]
    split
    · split
      · rename_i hf
        split
        · simp [WCreation.at, WPhase.weight, weight_head]
        · have hh : f.head = f := by unfold WinFlags.head; rw [if_pos hf]
          rw [hh]
          obtain ⟨a, b, c, d, e⟩ := f
          simp only at hf
          subst hf
          simp [WCreation.at, WPhase.weight, WinFlags.weight]; omega
      · have := weight_afterCaps j k f.head (os.rounds k) [] none
        rw [weight_head] at this
        simp only [WCreation.at, WPhase.weight] at this ⊢
        omega
    · dsimp only [WCreation.at]; exact Nat.lt_of_le_of_lt (ends _ _) (by simp [WPhase.weight]; omega)
  | numbering j k f => simp [WCreation.go, WCreation.at, WPhase.weight]
  | profiling j k f id =>
    simp only [WCreation.go]
    split
    · simp [WCreation.at, WPhase.weight]
    · split
      · have := weight_afterProfile j k f h (os.rounds k) id
        simp only [WCreation.at, WPhase.weight] at this ⊢
        omega
      · obtain ⟨a, b, c, d, e⟩ := f
        simp only [WPhase.contained] at h
        subst h
        simp [WCreation.at, WPhase.weight, WinFlags.weight]; omega
  | deleting j k f id => simp [WCreation.go, WCreation.at, WPhase.weight]
  | recreating j k f id =>
    simp only [WCreation.go]
    split
    · exact weight_afterProfile j k f h (os.rounds k) id
    · obtain ⟨a, b, c, d, e⟩ := f
      simp only [WPhase.contained] at h
      subst h
      simp [WCreation.at, WPhase.weight, WinFlags.weight]; omega
  | creating j k f at_ prof =>
    simp only [WCreation.go]
    split
    · simp only [WPhase.weight]; omega
    · split
      · rename_i hf
        obtain ⟨a, b, c, d, e⟩ := f
        simp only at hf
        subst hf
        simp [WCreation.at, WPhase.weight, WinFlags.weight]; omega
      · dsimp only [WCreation.at]; exact Nat.lt_of_le_of_lt (ends _ _) (by simp [WPhase.weight]; omega)
  | identifying e k prof =>
    simp only [WCreation.go]
    split
    · dsimp only [WCreation.at]; exact Nat.lt_of_le_of_lt (ends _ _) (by simp [WPhase.weight])
    · simp [WCreation.at, WPhase.weight]
  | attaching e q =>
    have := dropsOf_length os q
    simp only [WCreation.go]
    split
    · dsimp only [WCreation.at]; refine Nat.lt_of_le_of_lt (weight_fail _ _) ?_
      simp [WPhase.weight]; omega
    · simp [WCreation.at, WPhase.weight]
  | handing e q r => simp [WCreation.go, WCreation.at, WPhase.weight]
  | spawning m q r =>
    have := dropsOf_length os q
    simp only [WCreation.go]
    split
    · simp [WCreation.at, WPhase.weight]
    · dsimp only [WCreation.at]; refine Nat.lt_of_le_of_lt (weight_fail _ _) ?_
      simp [WPhase.weight]; omega
  | failing err l =>
    cases l with
    | nil => simp [WCreation.go, WCreation.at, WPhase.weight]
    | cons a l => simp only [WCreation.go, WCreation.at]; exact Nat.lt_of_le_of_lt (weight_fail _ _) (by simp [WPhase.weight])
  | failed err => cases ho
  | panicked => cases ho
  | served q m r => cases ho

theorem holds_stepped {j : Nat} {n : BitVec 64} (ls : List WinCreateEvent) (h : HoldsHandle j ls n) :
    ∃ b a, .step j b a ∈ ls := by
  rcases List.eq_nil_or_concat ls with rfl | ⟨l, ev, rfl⟩
  · exact h.elim
  · rw [List.concat_eq_append] at h ⊢
    have len : l.length < (l.concat ev).length := by simp
    cases ev with
    | made k c p os b =>
      rw [wholds_made] at h
      obtain ⟨b, a, hm⟩ := holds_stepped l h
      exact ⟨b, a, List.mem_append_left _ hm⟩
    | step k b a =>
      rw [wholds_step] at h
      by_cases hk : k = j
      · subst hk; exact ⟨b, a, by simp⟩
      · rw [if_neg hk] at h
        obtain ⟨b', a', hm⟩ := holds_stepped l h
        exact ⟨b', a', List.mem_append_left _ hm⟩
termination_by ls.length

/-- Only a call that has been made makes system calls. -/
theorem wsteps_made {w w' : WinCreators} {ls : List WinCreateEvent} (he : WinCreatorsExec DeclaredHandle w ls w') :
    ∀ j b a, .step j b a ∈ ls → w'.calls j ≠ none := by
  induction he with
  | start => intro j b a hm; cases hm
  | call ls w1 k c p os he hj hb ih =>
    intro j b a hm hn
    by_cases hk : j = k
    · rw [hk, wput_self] at hn; cases hn
    · rw [wput_other _ _ hk] at hn
      rcases List.mem_append.1 hm with hm | hm
      · exact ih j b a hm hn
      · cases List.mem_singleton.1 hm
  | go ls w1 k x he hj hx ih =>
    intro j b a hm hn
    by_cases hk : j = k
    · rw [hk, wput_self] at hn; cases hn
    · rw [wput_other _ _ hk] at hn
      rcases List.mem_append.1 hm with hm | hm
      · exact ih j b a hm hn
      · injection List.mem_singleton.1 hm with h1
        exact hk h1
  | other ls w1 w2 he ho ih => exact ih

theorem ownCalls_snoc (j k : Nat) (l : List WinCreateEvent) (b a : WinWorld) :
    ownCalls j (l ++ [.step k b a]) = ownCalls j l + if k = j then 1 else 0 := by
  simp [ownCalls, List.countP_append, List.countP_cons]

theorem ownCalls_snoc_made (j k : Nat) (l : List WinCreateEvent) (c p os) (b : WinWorld) :
    ownCalls j (l ++ [.made k c p os b]) = ownCalls j l := by
  simp [ownCalls, List.countP_append]

/-- After a call has opened a handle, what it has done since and has still to do is bounded. -/
theorem wreturns_inv {w w' : WinCreators} {ls : List WinCreateEvent} (h : NoWinCalls w)
    (he : WinCreatorsExec DeclaredHandle w ls w') : ∀ j x, w'.calls j = some x → x.phase.contained ∧ x.phase.weight ≤ 56 ∧
      ∀ l1 l2 n, ls = l1 ++ l2 → HoldsHandle j l1 n → ownCalls j l2 + x.phase.weight ≤ 55 := by
  induction he with
  | start => intro j x hj; rw [h.calls] at hj; cases hj
  | call ls w1 j c p os he hj hb ih =>
    intro k y hk
    rcases wput_cases k y hk with ⟨rfl, rfl⟩ | ⟨hne, hk⟩
    · refine ⟨trivial, Nat.le_refl _, ?_⟩
      intro l1 l2 n hl hh
      obtain ⟨b, a, hm⟩ := holds_stepped l1 hh
      have : WinCreateEvent.step k b a ∈ ls := by
        have : WinCreateEvent.step k b a ∈ ls ++ [.made k c p os w1.world] := hl ▸ List.mem_append_left _ hm
        rcases List.mem_append.1 this with hm | hm
        · exact hm
        · cases List.mem_singleton.1 hm
      exact (wsteps_made he k b a this hj).elim
    · obtain ⟨h1, h2, h3⟩ := ih k y hk
      refine ⟨h1, h2, ?_⟩
      intro l1 l2 n hl hh
      rcases List.eq_nil_or_concat l2 with rfl | ⟨l3, ev, rfl⟩
      · rw [List.append_nil] at hl
        subst hl
        rw [wholds_made] at hh
        exact h3 ls [] n (by simp) hh
      · rw [List.concat_eq_append, ← List.append_assoc] at hl
        obtain ⟨g1, g2⟩ := List.append_inj' hl rfl
        cases g2
        rw [List.concat_eq_append, ownCalls_snoc_made]
        exact h3 l1 l3 n g1 hh
  | go ls w1 j x he hj hx ih =>
    have hi := wexec_inv h he
    have hi2 := wexec_inv h (.go ls w1 j x he hj hx)
    obtain ⟨hc, h56, hn⟩ := ih j x hj
    have down : (∀ k id, x.phase ≠ .naming k id) → (x.go w1.world).2.phase.weight < x.phase.weight :=
      weight_go hc hx (hi.ok j x hj)
    intro k y hk
    rcases wput_cases k y hk with ⟨rfl, rfl⟩ | ⟨hne, hk'⟩
    · have first : (x.go w1.world).2.phase.weight ≤ 55 ∨ ∃ i id, (x.go w1.world).2.phase = .naming i id := by
        by_cases hna : ∃ i id, x.phase = .naming i id
        · obtain ⟨i, id, hna⟩ := hna
          unfold WCreation.go
          rw [hna]
          simp only
          split
          · left; simp [WCreation.at, WPhase.weight]
          · split
            · simp only [WCreation.at]
              split
              · exact .inr ⟨_, _, rfl⟩
              · left; simp [WPhase.weight]
            · left; simp [WCreation.at, WPhase.weight]
        · have := down fun i id e => hna ⟨i, id, e⟩
          omega
      refine ⟨contained_go w1.world x hc, ?_, ?_⟩
      · rcases first with h | ⟨i, id, h⟩
        · omega
        · rw [h]; simp [WPhase.weight]
      · intro l1 l2 n hl hh
        rcases List.eq_nil_or_concat l2 with rfl | ⟨l3, ev, rfl⟩
        · rw [List.append_nil] at hl
          rcases first with h | ⟨i, id, h⟩
          · simpa [ownCalls] using h
          · have := hi2.only k (x.go w1.world).2 (wput_self _ _ _) (.inr (by rw [h]; rfl)) n (hl ▸ hh)
            unfold WCreation.holding WCreation.owned at this
            rw [h] at this
            cases this
        · rw [List.concat_eq_append, ← List.append_assoc] at hl
          obtain ⟨g1, g2⟩ := List.append_inj' hl rfl
          cases g2
          rw [List.concat_eq_append, ownCalls_snoc, if_pos rfl]
          have := hn l1 l3 n g1 hh
          have := down fun i id e => by rw [e] at this; simp [WPhase.weight] at this
          omega
    · obtain ⟨h1, h2, h3⟩ := ih k y hk'
      refine ⟨h1, h2, ?_⟩
      intro l1 l2 n hl hh
      rcases List.eq_nil_or_concat l2 with rfl | ⟨l3, ev, rfl⟩
      · rw [List.append_nil] at hl
        subst hl
        rw [wholds_step, if_neg (Ne.symm hne)] at hh
        exact h3 ls [] n (by simp) hh
      · rw [List.concat_eq_append, ← List.append_assoc] at hl
        obtain ⟨g1, g2⟩ := List.append_inj' hl rfl
        cases g2
        rw [List.concat_eq_append, ownCalls_snoc, if_neg (Ne.symm hne)]
        exact h3 l1 l3 n g1 hh
  | other ls w1 w2 he ho ih => exact ih

/-- C132. Once a creation has opened its pipe it makes at most 55 more system calls, whatever the other threads do
meanwhile: it does not wait for a connection for ever (waiting is a system call that can be made any number of times), and
its loop ends. -/
theorem C132_returns (w w' : WinCreators) (l1 l2 : List WinCreateEvent) (j : Nat) (n : BitVec 64) (h : NoWinCalls w)
    (hx : WinCreatorsExec DeclaredHandle w (l1 ++ l2) w') (hh : HoldsHandle j l1 n) : ownCalls j l2 ≤ 55 := by
  obtain ⟨b, a, hm⟩ := holds_stepped l1 hh
  cases hj : w'.calls j with
  | none => exact (wsteps_made hx j b a (List.mem_append_left _ hm) hj).elim
  | some x =>
    have := (wreturns_inv h hx j x hj).2.2 l1 l2 n rfl hh
    omega

/-! ## A call that is not interrupted -/

/-- The system calls of one call, with nothing between them. -/
inductive WAlone : WinWorld × WCreation → WinWorld × WCreation → Prop
  | done (s : WinWorld × WCreation) : WAlone s s
  | next (w : WinWorld) (x : WCreation) (s : WinWorld × WCreation) (h : x.phase.over = false)
    (hs : WAlone (x.go w) s) : WAlone (w, x) s

theorem WAlone.trans {a b c : WinWorld × WCreation} (h : WAlone a b) (h' : WAlone b c) : WAlone a c := by
  induction h with
  | done _ => exact h'
  | next t x s hx _ ih => exact .next t x c hx (ih h')

/-- Dropping everything that is left. -/
theorem walone_fail (c : ProcessConfig) (p : Policy) (os : LaunchOs) (chd : Option WinChild) (err : Option BrokerError)
    (l : List WLeft) : ∀ w : WinWorld,
    WAlone (w, ⟨c, p, os, .fail err l, chd⟩) (l.foldl WinWorld.dropLeft w, ⟨c, p, os, .failed err, chd⟩) := by
  induction l with
  | nil => exact fun w => .done _
  | cons a l ih =>
    intro w
    refine .next _ _ _ rfl ?_
    exact ih (w.dropLeft a)

theorem walone_ends (c : ProcessConfig) (p : Policy) (os : LaunchOs) (chd : Option WinChild) (err : Option BrokerError)
    (e : WEnds) (w : WinWorld) :
    WAlone (w, ⟨c, p, os, .failEnds err e, chd⟩) ((w.close e.theirs).close e.mine, ⟨c, p, os, .failed err, chd⟩) :=
  walone_fail c p os chd err [.handle e.theirs, .handle e.mine] w

/-- The checks of the handles to be inherited. -/
theorem walone_checks (c : ProcessConfig) (p : Policy) (os : LaunchOs) (chd : Option WinChild) (e : WEnds) (w : WinWorld)
    (left : List Nat) : ∀ p1 : Policy,
    WAlone (w, ⟨c, p, os, .checking e p1 left, chd⟩)
      (match winAllowAll w p1 left with
        | .error err => ((w.close e.theirs).close e.mine, ⟨c, p, os, .failed (some err), chd⟩)
        | .ok p2 => (w, ⟨c, p, os, .checking e p2 [], chd⟩)) := by
  induction left with
  | nil => exact fun p1 => .done _
  | cons raw left ih =>
    intro p1
    refine .next _ _ _ rfl ?_
    simp only [WCreation.go, winAllowAll]
    cases winAllow w p1 raw with
    | error err => exact walone_ends c p os chd (some err) e w
    | ok p2 => exact ih p2

/-- How the loop of process creation ends: the process created in an iteration that began with state `s`, if any. -/
inductive LoopEnds (w : WinWorld) (c : ProcessConfig) (p : Policy) (os : LaunchOs) (j : WJob) (x0 : WinWorld × WCreation)
    (k : Nat) : WinAttempt → Prop
  | again (f : WinFlags) (s : WinStart) (l : List CreateProcessCall) (hl : s.calls = w.start.calls ++ l)
    (ha : ∀ a ∈ l, a.ok = false) (h : WAlone x0 ({ w with start := s }, ⟨c, p, os, .listing j k f, none⟩)) :
    LoopEnds w c p os j x0 k (.again f s)
  | failed (s : WinStart) (chd : Option WinChild)
    (hc : (w.spawned os j.config j.cmdline s).children = w.children ++ chd.toList)
    (h : WAlone x0 (((w.spawned os j.config j.cmdline s).close j.ends.theirs).close j.ends.mine,
      ⟨c, p, os, .failed none, chd⟩)) : LoopEnds w c p os j x0 k (.failed s)
  | created (q : WinProcess) (s : WinStart) (ch : WinChild)
    (hc : (w.spawned os j.config j.cmdline s).children = w.children ++ [ch])
    (h : WAlone x0 (w.spawned os j.config j.cmdline s, ⟨c, p, os, .attaching j.ends q, some ch⟩)) :
    LoopEnds w c p os j x0 k (.created q s)

/-- From the list of handles to the end of the iteration. -/
theorem walone_finish {w : WinWorld} {c : ProcessConfig} {p : Policy} {os : LaunchOs} {j : WJob} {x0 : WinWorld × WCreation}
    (hfree : w.pw.handles.free os.hProcess = true) (k : Nat) (f : WinFlags) (s : WinStart) (l : List CreateProcessCall)
    (hl : s.calls = w.start.calls ++ l) (ha : ∀ a ∈ l, a.ok = false) (at_ : List ProcAttr) (prof : Option Nat)
    (h : WAlone x0 ({ w with start := s }, ⟨c, p, os, winAfterCaps j k f (os.rounds k) at_ prof, none⟩)) :
    LoopEnds w c p os j x0 (k + 1)
      (winFinish (j.policy.inheritedHandles.map (BitVec.ofNat 64)) f f.slots at_ prof s (os.rounds k)) := by
  unfold winAfterCaps at h
  unfold winFinish
  cases h1 : trySet f.filterHandles (os.rounds k)
      (.handleList (handlesToInherit (j.policy.inheritedHandles.map (BitVec.ofNat 64)))) at_ with
  | none => rw [h1] at h; exact .again _ _ l hl ha h
  | some a1 =>
    rw [h1] at h
    simp only at h ⊢
    cases h2 : trySet f.blockChildren (os.rounds k) (.childProcessPolicy 1) a1 with
    | none => rw [h2] at h; exact .again _ _ l hl ha h
    | some a2 =>
      rw [h2] at h
      simp only at h ⊢
      cases h3 : trySet f.mitigations (os.rounds k) (.mitigationPolicy mitigationValue) a2 with
      | none => rw [h3] at h; exact .again _ _ l hl ha h
      | some a3 =>
        rw [h3] at h
        simp only at h ⊢
        by_cases hok : (os.rounds k).createOk = true
        · rw [if_pos hok, hok]
          have hgo : WCreation.go { w with start := s } ⟨c, p, os, .creating j k f a3 prof, none⟩ =
              ((WinWorld.record { w with start := s } f a3 true).addChild os.hProcess
                (WinWorld.newChild { w with start := s } os j a3),
               ⟨c, p, os, .identifying j.ends k prof, some (WinWorld.newChild { w with start := s } os j a3)⟩) := by
            simp only [WCreation.go]
            rw [if_pos]
            rw [hok, hfree]; rfl
          have hl' : s.calls ++ [⟨f.slots, a3, true⟩] = w.start.calls ++ l ++ [⟨f.slots, a3, true⟩] := by
            rw [hl]
          have hsp := spawned_ok (w := w) (os := os) (c := j.config) (cmdline := j.cmdline)
            (s := { s with calls := s.calls ++ [⟨f.slots, a3, true⟩] }) hl' rfl
          have h' := h.trans (.next _ _ _ rfl (.done _))
          rw [hgo] at h'
          by_cases hpid : (os.rounds k).pid = 0
          · rw [if_pos hpid]
            refine .failed _ (some (WinWorld.newChild { w with start := s } os j a3)) (by rw [hsp]; rfl) ?_
            rw [hsp]
            refine h'.trans (.next _ _ _ rfl ?_)
            simp only [WCreation.go]
            rw [if_pos hpid]
            exact walone_ends c p os _ none j.ends _
          · rw [if_neg hpid]
            refine .created _ _ (WinWorld.newChild { w with start := s } os j a3) (by rw [hsp]; rfl) ?_
            rw [hsp]
            refine h'.trans (.next _ _ _ rfl ?_)
            simp only [WCreation.go]
            rw [if_neg hpid]
            exact .done _
        · rw [if_neg hok]
          have hfalse : (os.rounds k).createOk = false := by simpa using hok
          rw [hfalse]
          have hl' : s.calls ++ [⟨f.slots, a3, false⟩] = w.start.calls ++ (l ++ [⟨f.slots, a3, false⟩]) := by
            rw [hl, List.append_assoc]
          have ha' : ∀ a ∈ l ++ [⟨f.slots, a3, false⟩], a.ok = false := by
            intro a hm
            rcases List.mem_append.1 hm with hm | hm
            · exact ha a hm
            · rw [List.mem_singleton.1 hm]
          have h' := h.trans (.next _ _ _ rfl (.done _))
          simp only [WCreation.go, hfalse, Bool.false_and, Bool.false_eq_true, if_false] at h'
          by_cases hmit : f.mitigations = true
          · rw [if_pos hmit] at h' ⊢
            exact .again _ _ _ hl' ha' h'
          · rw [if_neg hmit] at h' ⊢
            refine .failed _ none ?_ ?_
            · rw [spawned_not hl' ha']; simp
            · rw [spawned_not hl' ha']
              exact h'.trans (walone_ends c p os none none j.ends _)

/-- One iteration of the loop. -/
theorem walone_attempt {w : WinWorld} {c : ProcessConfig} {p : Policy} {os : LaunchOs} {j : WJob} {x0 : WinWorld × WCreation}
    (hfree : w.pw.handles.free os.hProcess = true) (k : Nat) (f : WinFlags) (s : WinStart) (l : List CreateProcessCall)
    (hl : s.calls = w.start.calls ++ l) (ha : ∀ a ∈ l, a.ok = false)
    (h : WAlone x0 ({ w with start := s }, ⟨c, p, os, .listing j k f, none⟩)) :
    LoopEnds w c p os j x0 (k + 1)
      (winAttempt os.supported (j.policy.inheritedHandles.map (BitVec.ofNat 64)) f s (os.rounds k)) := by
  have h' := h.trans (.next _ _ _ rfl (.done _))
  unfold winAttempt
  simp only [WCreation.go] at h'
  by_cases hlist : (os.rounds k).listOk = true
  · simp only [if_pos hlist] at h' ⊢
    by_cases hac : f.appContainer = true
    · have hhead : f.head = f := by unfold WinFlags.head; rw [if_pos hac]
      simp only [if_pos hac, hhead] at h' ⊢
      by_cases hsup : os.supported = true
      · rw [if_pos hsup] at h' ⊢
        have h2 := h'.trans (.next _ _ _ rfl (.done _))
        have hgo : WCreation.go { w with start := s } (WCreation.at ⟨c, p, os, .listing j k f, none⟩ (.numbering j k f)) =
            ({ w with start := { s with nextId := s.nextId + 1 } }, ⟨c, p, os, .profiling j k f s.nextId, none⟩) := rfl
        rw [hgo] at h2
        have tail : ∀ (ps : List Nat), WAlone x0 ({ w with start := { s with nextId := s.nextId + 1, profiles := ps } },
            ⟨c, p, os, winAfterProfile j k f (os.rounds k) s.nextId, none⟩) →
            LoopEnds w c p os j x0 (k + 1) (match trySet true (os.rounds k) (.securityCapabilities s.nextId) [] with
              | none => .again { f with appContainer := false } { s with nextId := s.nextId + 1, profiles := ps }
              | some attributes =>
                match trySet f.lessPrivileged (os.rounds k) (.allApplicationPackagesPolicy 1) attributes with
                | none => .again { f with lessPrivileged := false } { s with nextId := s.nextId + 1, profiles := ps }
                | some attributes => winFinish (j.policy.inheritedHandles.map (BitVec.ofNat 64)) f f.slots attributes
                  (some s.nextId) { s with nextId := s.nextId + 1, profiles := ps } (os.rounds k)) := by
          intro ps h3
          unfold winAfterProfile at h3
          cases h4 : trySet true (os.rounds k) (.securityCapabilities s.nextId) [] with
          | none => rw [h4] at h3; exact .again _ _ l hl ha h3
          | some a1 =>
            rw [h4] at h3
            simp only at h3 ⊢
            cases h5 : trySet f.lessPrivileged (os.rounds k) (.allApplicationPackagesPolicy 1) a1 with
            | none => rw [h5] at h3; exact .again _ _ l hl ha h3
            | some a2 =>
              rw [h5] at h3
              exact walone_finish hfree k f { s with nextId := s.nextId + 1, profiles := ps } l hl ha a2 (some s.nextId) h3
        have h3 := h2.trans (.next _ _ _ rfl (.done _))
        simp only [WCreation.go] at h3
        unfold createProfile
        by_cases hex : (os.rounds k).profile1 = HRESULT_ALREADY_EXISTS
        · simp only [if_pos hex] at h3 ⊢
          have hdel : WCreation.go { w with start := { s with nextId := s.nextId + 1 } }
              (WCreation.at ⟨c, p, os, .profiling j k f s.nextId, none⟩ (.deleting j k f s.nextId)) =
              ({ w with start := { s with nextId := s.nextId + 1, profiles := s.profiles.filter (· ≠ s.nextId) } },
               ⟨c, p, os, .recreating j k f s.nextId, none⟩) := rfl
          have h3' := h3.trans (.next _ _ _ rfl (.done _))
          rw [hdel] at h3'
          have h4 := h3'.trans (.next _ _ _ rfl (.done _))
          simp only [WCreation.go] at h4
          by_cases hp2 : (os.rounds k).profile2 = 0
          · rw [if_pos hp2] at h4 ⊢
            exact tail _ h4
          · rw [if_neg hp2] at h4 ⊢
            exact .again _ _ l hl ha h4
        · simp only [if_neg hex] at h3 ⊢
          by_cases hp1 : (os.rounds k).profile1 = 0
          · simp only [if_pos hp1] at h3 ⊢
            exact tail _ h3
          · simp only [if_neg hp1] at h3 ⊢
            exact .again _ { s with nextId := s.nextId + 1 } l hl ha h3
      · rw [if_neg hsup] at h' ⊢
        exact .again _ _ l hl ha h'
    · have hhead : f.head = { f with lessPrivileged := false } := by unfold WinFlags.head; rw [if_neg hac]
      simp only [if_neg hac, hhead] at h' ⊢
      have := walone_finish hfree k _ s l hl ha [] none h'
      exact this
  · simp only [if_neg hlist] at h' ⊢
    refine .failed _ none ?_ ?_
    · rw [spawned_not hl ha]; simp
    · rw [spawned_not hl ha]
      exact h'.trans (walone_ends c p os none none j.ends _)

/-- The loop. -/
theorem walone_loop {w : WinWorld} {c : ProcessConfig} {p : Policy} {os : LaunchOs} {j : WJob} {x0 : WinWorld × WCreation}
    (hfree : w.pw.handles.free os.hProcess = true) (n : Nat) : ∀ (k : Nat) (f : WinFlags) (s : WinStart)
    (l : List CreateProcessCall) (_ : s.calls = w.start.calls ++ l) (_ : ∀ a ∈ l, a.ok = false)
    (_ : WAlone x0 ({ w with start := s }, ⟨c, p, os, .listing j k f, none⟩)),
    ∃ k', LoopEnds w c p os j x0 k'
      (winLoop os.supported (j.policy.inheritedHandles.map (BitVec.ofNat 64)) os.rounds n k f s) := by
  induction n with
  | zero => intro k f s l hl ha h; exact ⟨k, .again f s l hl ha h⟩
  | succ n ih =>
    intro k f s l hl ha h
    have h1 := walone_attempt hfree k f s l hl ha h
    rw [winLoop]
    generalize winAttempt os.supported (j.policy.inheritedHandles.map (BitVec.ofNat 64)) f s (os.rounds k) = r at h1
    cases h1 with
    | again f' s' l' hl' ha' h' => exact ih (k + 1) f' s' l' hl' ha' h'
    | failed s' chd hc h' => exact ⟨0, .failed s' chd hc h'⟩
    | created q s' ch hc h' => exact ⟨0, .created q s' ch hc h'⟩

theorem foldl_children (l : List WLeft) : ∀ w : WinWorld, (l.foldl WinWorld.dropLeft w).children = w.children := by
  induction l with
  | nil => exact fun w => rfl
  | cons a l ih =>
    intro w
    rw [List.foldl_cons, ih]
    cases a <;> rfl

theorem openProcess_children {os : LaunchOs} {w w' : WinWorld} {h : BitVec 64} (ho : w.openProcess os = some (h, w')) :
    w'.children = w.children := by
  unfold WinWorld.openProcess at ho
  split at ho
  · split at ho
    · cases ho; rfl
    · cases ho
  · cases ho

theorem foldl_dropsOf (os : LaunchOs) (q : WinProcess) (w : WinWorld) :
    (dropsOf os q).foldl WinWorld.dropLeft w = w.dropProcess os q := by
  obtain ⟨pid, prof⟩ := q
  unfold dropsOf WinWorld.dropProcess WinProcess.drop
  cases prof with
  | none => simp [WinWorld.dropLeft, WinWorld.close]
  | some id => cases os.supported <;> simp [WinWorld.dropLeft, WinWorld.close, WinWorld.deleteProfile]

/-- Where a call is when it has ended in this way. -/
def EndsAt (r : LaunchEnd) (ph : WPhase) : Prop :=
  match r with
  | .worker q pipe remote => ph = .served q pipe remote
  | .error e => ph = .failed e
  | .panics => ph = .panicked
  | .hangs => ∃ k e, ph = .connecting k e
  | .unfinished => ∃ k id, ph = .naming k id

/-- From `CreateProcess` on. -/
theorem walone_process (c : ProcessConfig) (p : Policy) (os : LaunchOs) (w : WinWorld) (e : WEnds) (p2 : Policy) (c2 : ProcessConfig)
    (cmdline : Bytes) (hcmd : winCommandLine c2.exe c2.argv = some cmdline) (hfree : w.pw.handles.free os.hProcess = true) :
    ∃ ph chd w', WAlone (w, ⟨c, p, os, .locating ⟨e, p2, c2, cmdline⟩, none⟩) (w', ⟨c, p, os, ph, chd⟩) ∧
      w'.children = w.children ++ chd.toList ∧
      (match winNewProcess os p2 c2 w with
        | (.error err, w1) => ph = .failed err ∧ w' = (w1.close e.theirs).close e.mine
        | (.ok q, w1) => ph = .attaching e q ∧ w' = w1) := by
  unfold winNewProcess
  rw [hcmd]
  simp only [hfree, Bool.and_true]
  by_cases hdir : os.windowsDirectory = true
  · rw [if_pos hdir]
    have h0 : WAlone (w, ⟨c, p, os, .locating ⟨e, p2, c2, cmdline⟩, none⟩)
        ({ w with start := w.start }, ⟨c, p, os, .listing ⟨e, p2, c2, cmdline⟩ 0 ⟨true, true, true, true, true⟩, none⟩) := by
      refine .next _ _ _ rfl ?_
      simp only [WCreation.go]
      rw [if_pos hdir]
      exact .done _
    obtain ⟨k, hk⟩ := walone_loop (j := ⟨e, p2, c2, cmdline⟩) hfree 6 0 _ w.start [] (by simp) (by simp) h0
    have hne := fun f s' => (C62_ends os.supported (p2.inheritedHandles.map (BitVec.ofNat 64)) os.rounds w.start 6 (by omega)).1 f s'
    simp only at hk
    unfold winCreate at *
    generalize winLoop os.supported (p2.inheritedHandles.map (BitVec.ofNat 64)) os.rounds 6 0 ⟨true, true, true, true, true⟩
      w.start = r at hk hne ⊢
    cases hk with
    | again f s l hl ha h => exact (hne f s rfl).elim
    | failed s chd hc h => exact ⟨_, chd, _, h, hc, rfl, rfl⟩
    | created q s ch hc h => exact ⟨_, some ch, _, h, hc, rfl, rfl⟩
  · rw [if_neg hdir]
    refine ⟨_, none, _, .next _ _ _ rfl ?_, by simp [WinWorld.close], rfl, rfl⟩
    simp only [WCreation.go]
    rw [if_neg hdir]
    exact walone_ends c p os none none e w

/-- From the channel on. -/
theorem walone_launch (c : ProcessConfig) (p : Policy) (os : LaunchOs) (w : WinWorld) (e : WEnds)
    (hfree : w.pw.handles.free os.hProcess = true) :
    ∃ ph chd w', WAlone (w, ⟨c, p, os, .marking e, none⟩) (w', ⟨c, p, os, ph, chd⟩) ∧
      w'.children = w.children ++ chd.toList ∧ launchWith os p c w e.mine e.theirs = ((launchWith os p c w e.mine e.theirs).1, w') ∧
      EndsAt (launchWith os p c w e.mine e.theirs).1 ph := by
  unfold launchWith
  by_cases hset : os.setInheritable = true
  · rw [if_pos hset]
    have h0 : WAlone (w, ⟨c, p, os, .marking e, none⟩) ({ w with inheritable := e.theirs :: w.inheritable },
        ⟨c, p, os, .checking e p (e.theirs.toNat :: [c.stdin, c.stdout, c.stderr].filterMap id), none⟩) := by
      refine .next _ _ _ rfl ?_
      simp only [WCreation.go]
      rw [if_pos hset]
      exact .done _
    have h1 := h0.trans (walone_checks c p os none e _ _ p)
    rw [winAllowAll] at h1
    simp only at h1 ⊢
    unfold winPrepare
    have hf : WinWorld.pw { w with inheritable := e.theirs :: w.inheritable } = w.pw := rfl
    have hch : WinWorld.children { w with inheritable := e.theirs :: w.inheritable } = w.children := rfl
    generalize WinWorld.mk w.pw (e.theirs :: w.inheritable) w.start w.children = v at h1 hf hch ⊢
    rw [← hf] at hfree
    rw [← hch]
    clear hf hch h0
    cases h2 : winAllow v p e.theirs.toNat with
    | error err => rw [h2] at h1; exact ⟨_, none, _, h1, by simp [WinWorld.close], rfl, rfl⟩
    | ok p1 =>
      rw [h2] at h1
      simp only at h1 ⊢
      cases h3 : winAllowAll v p1 ([c.stdin, c.stdout, c.stderr].filterMap id) with
      | error err => rw [h3] at h1; exact ⟨_, none, _, h1, by simp [WinWorld.close], rfl, rfl⟩
      | ok p2 =>
        rw [h3] at h1
        have h4 := h1.trans (.next _ _ _ rfl (.done _))
        simp only [WCreation.go, winAfterChecks] at h4 ⊢
        generalize c.setEnv (ipcHandleVar e.theirs.toNat) = r at h4 ⊢
        obtain ⟨r, c2⟩ := r
        cases r with
        | error err => exact ⟨_, none, _, h4.trans (walone_ends c p os none (some err) e v), by simp [WinWorld.close], rfl, rfl⟩
        | ok u =>
          simp only at h4 ⊢
          cases hcmd : winCommandLine c2.exe c2.argv with
          | none =>
            rw [hcmd] at h4
            have : winNewProcess os p2 c2 v = (.error (some .missingCommandLine), v) := by
              unfold winNewProcess; rw [hcmd]
            rw [this]
            exact ⟨_, none, _, h4.trans (walone_ends c p os none (some .missingCommandLine) e v), by simp [WinWorld.close], rfl, rfl⟩
          | some cmdline =>
            rw [hcmd] at h4
            obtain ⟨ph, chd, w', g1, g2, g3⟩ := walone_process c p os v e p2 c2 cmdline hcmd hfree
            have h5 := h4.trans g1
            generalize winNewProcess os p2 c2 v = r at g3 ⊢
            obtain ⟨r, w1⟩ := r
            cases r with
            | error err =>
              obtain ⟨rfl, rfl⟩ := g3
              exact ⟨_, chd, _, h5, g2, rfl, rfl⟩
            | ok q =>
              obtain ⟨rfl, rfl⟩ := g3
              simp only at h5 ⊢
              have h6 := h5.trans (.next _ _ _ rfl (.done _))
              simp only [WCreation.go] at h6
              cases ho : w'.openProcess os with
              | none =>
                rw [ho] at h6
                refine ⟨_, chd, _, h6.trans (walone_fail c p os chd none _ w'), ?_, ?_, rfl⟩
                · rw [foldl_children]; exact g2
                · rw [List.foldl_append, foldl_dropsOf]; rfl
              | some o =>
                obtain ⟨h, w2⟩ := o
                rw [ho] at h6
                have hgo : WCreation.go w2 (WCreation.at ⟨c, p, os, .attaching e q, chd⟩ (.handing e q h)) =
                    (w2.close e.theirs, ⟨c, p, os, .spawning e.mine q h, chd⟩) := rfl
                have h6' := h6.trans (.next _ _ _ rfl (.done _))
                rw [hgo] at h6'
                have h7 := h6'.trans (.next _ _ _ rfl (.done _))
                simp only [WCreation.go] at h7 ⊢
                have hc2 : w2.children = w'.children := openProcess_children ho
                by_cases hspawn : os.spawn = true
                · simp only [if_pos hspawn] at h7 ⊢
                  exact ⟨_, chd, _, h7, hc2.trans g2, rfl, rfl⟩
                · simp only [if_neg hspawn] at h7 ⊢
                  refine ⟨_, chd, _, h7.trans (walone_fail c p os chd none _ _), ?_, ?_, rfl⟩
                  · rw [foldl_children]; exact hc2.trans g2
                  · rw [List.foldl_cons, List.foldl_cons, foldl_dropsOf]; rfl
  · rw [if_neg hset]
    refine ⟨_, none, _, .next _ _ _ rfl ?_, by simp [WinWorld.close], rfl, rfl⟩
    simp only [WCreation.go]
    rw [if_neg hset]
    exact walone_ends c p os none none e w

theorem createNamedPipe_error {w w' : PipeWorld} {name : Bytes} {res : Except (BitVec 32) (BitVec 64)} {e : BitVec 32}
    (h : createNamedPipe w name res = (.error e, w')) : w' = w := by
  unfold createNamedPipe at h
  split at h
  · cases h; rfl
  · split at h
    · cases h; rfl
    · split at h
      · cases h
      · cases h; rfl

theorem createNamedPipe_free {w w' : PipeWorld} {name : Bytes} {res : Except (BitVec 32) (BitVec 64)} {h : BitVec 64}
    (he : createNamedPipe w name res = (.ok h, w')) : w.handles.get h = none ∧ w'.handles = (h, w.next) :: w.handles := by
  unfold createNamedPipe at he
  split at he
  · cases he
  · split at he
    · cases he
    · split at he
      · rename_i hf
        cases he
        refine ⟨?_, rfl⟩
        simp only [HTable.free, Bool.and_eq_true, Option.isNone_iff_eq_none] at hf
        exact hf.2
      · cases he

theorem openPipe_free {w w' : PipeWorld} {name : Bytes} {res : Except (BitVec 32) (BitVec 64 × Nat)} {h : BitVec 64}
    (he : openPipe w name res = (.ok h, w')) : w.handles.get h = none := by
  unfold openPipe at he
  split at he
  · cases he
  · split at he
    · split at he
      · rename_i hf
        cases he
        simp only [HTable.free, Bool.and_eq_true, Option.isNone_iff_eq_none] at hf
        exact hf.2
      · cases he
    · cases he

/-- Closing a handle that is not inheritable. -/
theorem wclose_plain {w : WinWorld} {h : BitVec 64} (hn : h ∉ w.inheritable) (pw : PipeWorld) :
    WinWorld.close { w with pw := pw } h = { w with pw := pw.close h } := by
  unfold WinWorld.close
  simp only [WinWorld.mk.injEq, true_and, and_true]
  exact List.filter_eq_self.2 fun a ha => by rw [decide_eq_true_iff]; rintro rfl; exact hn ha

/-- The ends of the channel. -/
theorem walone_channel (c : ProcessConfig) (p : Policy) (os : LaunchOs) (w : WinWorld)
    (hi : ∀ h ∈ w.inheritable, w⟪h⟫ ≠ none)
    (hq : ∀ k, othersActs (os.pipes k) = []) (n : Nat) : ∀ (k : Nat) (id : BitVec 32),
    ∃ ph pw, WAlone (w, ⟨c, p, os, .naming k id, none⟩) ({ w with pw := pw }, ⟨c, p, os, ph, none⟩) ∧
      (match channelNew os.pid os.pipes n k id w.pw with
        | none => ph = .panicked ∧ pw = w.pw
        | some (.again, q) => (∃ k id, ph = .naming k id) ∧ pw = q
        | some (.hangs, q) => (∃ k e, ph = .connecting k e) ∧ pw = q
        | some (.error _, q) => ph = .failed none ∧ pw = q
        | some (.channel a b, q) => ph = .marking ⟨a, b⟩ ∧ pw = q) := by
  induction n with
  | zero => intro k id; exact ⟨_, w.pw, .done _, ⟨k, id, rfl⟩, rfl⟩
  | succ n ih =>
    intro k id
    rw [channelNew]
    have h0 : WAlone (w, ⟨c, p, os, .naming k id, none⟩) (WCreation.go w ⟨c, p, os, .naming k id, none⟩) :=
      .next _ _ _ rfl (.done _)
    simp only [WCreation.go] at h0
    cases hn : pipeName os.pid (id + 1) with
    | none => rw [hn] at h0; exact ⟨_, w.pw, h0, rfl, rfl⟩
    | some name =>
      rw [hn] at h0
      simp only [Option.bind_some] at h0 ⊢
      have hq := hq k
      unfold othersActs at hq
      simp only [List.append_eq_nil_iff] at hq
      obtain ⟨⟨⟨⟨q1, q2⟩, q3⟩, q4⟩, q5⟩ := hq
      unfold channelAttempt
      simp only [q1, q2, PipeWorld.others, List.foldl_nil]
      cases h1 : createNamedPipe w.pw name (os.pipes k).create with
      | mk r pw =>
      rw [h1] at h0
      cases r with
      | error e =>
        obtain rfl := createNamedPipe_error h1
        simp only at h0 ⊢
        by_cases he : e = 5
        · simp only [if_pos he] at h0 ⊢
          obtain ⟨ph, pw, g1, g2⟩ := ih (k + 1) (id + 1)
          exact ⟨ph, pw, h0.trans g1, g2⟩
        · simp only [if_neg he] at h0 ⊢
          exact ⟨_, _, h0, rfl, rfl⟩
      | ok h =>
        simp only at h0 ⊢
        obtain ⟨hn1, hpw⟩ := createNamedPipe_free h1
        have hni : h ∉ w.inheritable := fun hm => hi h hm hn1
        have h2 := h0.trans (.next _ _ _ rfl (.done _))
        simp only [WCreation.go, WCreation.at] at h2
        cases h3 : openPipe pw name (os.pipes k).open_ with
        | mk r pw2 =>
        rw [h3] at h2
        cases r with
        | error e =>
          have h2 := h2.trans (walone_fail c p os none none [.handle h] _)
          simp only [List.foldl_cons, List.foldl_nil, WinWorld.dropLeft, wclose_plain hni] at h2
          exact ⟨_, _, h2, rfl, rfl⟩
        | ok h' =>
          simp only at h2 ⊢
          have hni' : h' ∉ w.inheritable := by
            intro hm
            have hn2 := openPipe_free h3
            rw [hpw] at hn2
            have := hi h' hm
            simp only [HTable.get, List.find?_cons] at hn2 this
            split at hn2
            · cases hn2
            · exact this hn2
          have h4 := h2.trans (.next _ _ _ rfl (.done _))
          simp only [WCreation.go, WCreation.at] at h4
          unfold finishChannel
          simp only [q3, q4, q5, PipeWorld.others, List.foldl_nil]
          by_cases hc : pw2.connected h = true
          · simp only [if_pos hc] at h4
            have h5 := h4.trans (.next _ _ _ rfl (.done _))
            simp only [WCreation.go, WCreation.at] at h5
            simp only [hc]
            cases hm : (os.pipes k).setMode with
            | some e =>
              rw [hm] at h5
              simp only at h5
              have h5 := h5.trans (walone_ends c p os none none ⟨h, h'⟩ _)
              simp only [wclose_plain hni', wclose_plain hni] at h5
              exact ⟨_, _, h5, rfl, rfl⟩
            | none =>
              rw [hm] at h5
              exact ⟨_, _, h5, rfl, rfl⟩
          · simp only [if_neg hc] at h4
            have hc' : pw2.connected h = false := by simpa using hc
            simp only [hc']
            cases hcn : (os.pipes k).connect with
            | some e =>
              rw [hcn] at h4
              simp only at h4
              have h4 := h4.trans (walone_ends c p os none none ⟨h, h'⟩ _)
              simp only [wclose_plain hni', wclose_plain hni] at h4
              exact ⟨_, _, h4, rfl, rfl⟩
            | none =>
              rw [hcn] at h4
              exact ⟨_, _, h4, ⟨_, _, rfl⟩, rfl⟩

/-- C132. A call that nothing interrupts is the call of Model/WinLaunch.lean: it ends with the same result, and leaves the same
handles, pipes, profiles and processes behind. The handle of the process is not 0, and not in use when it is opened. -/
theorem C132_alone (os : LaunchOs) (p : Policy) (c : ProcessConfig) (w : WinWorld)
    (hi : ∀ h ∈ w.inheritable, w⟪h⟫ ≠ none) (hq : ∀ k, othersActs (os.pipes k) = [])
    (h0 : os.hProcess ≠ 0)
    (hp : ∀ a b pw, channelNew os.pid os.pipes os.tries 0 0 w.pw = some (.channel a b, pw) →
      pw.handles.get os.hProcess = none) :
    ∃ ph chd, WAlone (w, .make c p os) ((winWorkerNew os p c w).2, ⟨c, p, os, ph, chd⟩) ∧
      (winWorkerNew os p c w).2.children = w.children ++ chd.toList ∧
      EndsAt (winWorkerNew os p c w).1 ph := by
  obtain ⟨ph, pw, h1, h2⟩ := walone_channel c p os w hi hq os.tries 0 0
  unfold winWorkerNew
  generalize channelNew os.pid os.pipes os.tries 0 0 w.pw = r at h2 hp ⊢
  cases r with
  | none => obtain ⟨rfl, rfl⟩ := h2; exact ⟨_, none, h1, by simp, rfl⟩
  | some r =>
    obtain ⟨r, q⟩ := r
    cases r with
    | again => obtain ⟨⟨k, id, rfl⟩, rfl⟩ := h2; exact ⟨_, none, h1, by simp, ⟨k, id, rfl⟩⟩
    | hangs => obtain ⟨⟨k, e, rfl⟩, rfl⟩ := h2; exact ⟨_, none, h1, by simp, ⟨k, e, rfl⟩⟩
    | error e => obtain ⟨rfl, rfl⟩ := h2; exact ⟨_, none, h1, by simp, rfl⟩
    | channel a b =>
      obtain ⟨rfl, rfl⟩ := h2
      have hfree : pw.handles.free os.hProcess = true := by
        have := hp a b pw rfl
        simp only [HTable.free, this, Option.isNone_none, Bool.and_true, bne_iff_ne, ne_eq]
        exact h0
      obtain ⟨ph, chd, w', g1, g2, g3, g4⟩ := walone_launch c p os { w with pw := pw } ⟨a, b⟩ hfree
      simp only at g3 g4 ⊢
      have : w' = (launchWith os p c { w with pw := pw } a b).2 := by rw [g3]
      subst this
      exact ⟨ph, chd, h1.trans g1, g2, g4⟩

/-! ## Two calls -/

def WinCreators.turn (s : List WinCreateEvent × WinCreators) (j : Nat) : List WinCreateEvent × WinCreators :=
  match s.2.calls j with
  | none => s
  | some x =>
    if x.phase.over then s
    else (s.1 ++ [.step j s.2.world (x.go s.2.world).1], s.2.put j (x.go s.2.world))

theorem wturns_exec {w : WinCreators} (l : List Nat) : ∀ (s : List WinCreateEvent × WinCreators),
    WinCreatorsExec DeclaredHandle w s.1 s.2 →
    WinCreatorsExec DeclaredHandle w (l.foldl WinCreators.turn s).1 (l.foldl WinCreators.turn s).2 := by
  induction l with
  | nil => exact fun s h => h
  | cons j l ih =>
    intro s h
    apply ih
    unfold WinCreators.turn
    split
    · exact h
    · rename_i x hx
      split
      · exact h
      · rename_i ho
        exact .go _ _ j x h hx (by simpa using ho)

/-- The pipe of the first call. -/
def firstOs : LaunchOs := { launchOs with pipes := fun _ => ⟨[], .ok 4, [], .ok (8, 2), [], none, [], [], none⟩ }

/-- Another worker, with a pipe and handles of its own. -/
def secondOs (r : WinRound) : LaunchOs :=
  { launchOs with
    pipes := fun _ => ⟨[], .ok 28, [], .ok (32, 4), [], none, [], [], none⟩
    rounds := fun _ => r
    hProcess := 36
    opened := some 40 }

def secondConfig : ProcessConfig := ProcessConfig.new (utf8 c!"C:\\b.exe") [utf8 c!"b"]

def noWinCalls : WinCreators := ⟨launchWorld, fun _ => none⟩

theorem noWinCalls_ok : NoWinCalls noWinCalls := by
  refine ⟨fun _ => rfl, by decide, ?_, ?_, by simp [noWinCalls, launchWorld], by decide⟩
  · intro h hm
    simp only [noWinCalls, launchWorld, List.mem_singleton] at hm
    subst hm
    decide
  · intro h o ho
    simp only [noWinCalls, launchWorld, HTable.get, List.find?_cons, List.find?_nil] at ho ⊢
    split at ho
    · cases ho; decide
    · split at ho
      · cases ho; decide
      · cases ho

/-- Two calls have been made. -/
def twoWinCalls (r1 r2 : WinRound) : List WinCreateEvent × WinCreators :=
  ([.made 0 launchConfig .nothingAllowed { firstOs with rounds := fun _ => r1 } launchWorld,
    .made 1 secondConfig .nothingAllowed (secondOs r2) launchWorld],
   (noWinCalls.put 0 (launchWorld, .make launchConfig .nothingAllowed { firstOs with rounds := fun _ => r1 })).put 1
     (launchWorld, .make secondConfig .nothingAllowed (secondOs r2)))

theorem launchConfig_declared {h : BitVec 64} (hd : DeclaredHandle .nothingAllowed launchConfig h) : h = 16 := by
  obtain ⟨raw, hd, rfl⟩ := hd
  have h1 : Policy.nothingAllowed.inheritedHandles = [] := by decide
  have h2 : launchConfig.stdin = some 16 ∧ launchConfig.stdout = none ∧ launchConfig.stderr = none := by decide
  simp only [Declared, h1, h2.1, h2.2.1, h2.2.2, List.not_mem_nil, reduceCtorEq, Option.some.injEq, false_or,
    or_false] at hd
  rw [← hd]
  rfl

theorem secondConfig_declared {h : BitVec 64} (hd : DeclaredHandle .nothingAllowed secondConfig h) : False := by
  obtain ⟨raw, hd, rfl⟩ := hd
  have h1 : Policy.nothingAllowed.inheritedHandles = [] := by decide
  have h2 : secondConfig.stdin = none ∧ secondConfig.stdout = none ∧ secondConfig.stderr = none := by decide
  simp only [Declared, h1, h2.1, h2.2.1, h2.2.2, List.not_mem_nil, reduceCtorEq, or_false] at hd

theorem twoWinCalls_exec (r1 r2 : WinRound) :
    WinCreatorsExec DeclaredHandle noWinCalls (twoWinCalls r1 r2).1 (twoWinCalls r1 r2).2 := by
  refine .call _ _ 1 secondConfig .nothingAllowed (secondOs r2) (.call [] noWinCalls 0 launchConfig .nothingAllowed _ .start rfl
    fun h hd => ⟨?_, fun k x hx => by cases hx⟩) rfl fun h hd => (secondConfig_declared hd).elim
  rw [launchConfig_declared hd]
  decide

/-- The order of the system calls: the second process is created while both ends of the first channel are open in the broker and
the first worker's is inheritable; then the first process is. -/
def winSchedule : List Nat :=
  List.replicate 8 0 ++ List.replicate 13 1 ++ List.replicate 9 0 ++ List.replicate 4 1

/-- The execution meets the hypotheses of the theorems, -/
example : NoWinCalls noWinCalls ∧
    WinCreatorsExec DeclaredHandle noWinCalls (winSchedule.foldl WinCreators.turn (twoWinCalls winGoodRound winGoodRound)).1
      (winSchedule.foldl WinCreators.turn (twoWinCalls winGoodRound winGoodRound)).2 :=
  ⟨noWinCalls_ok, wturns_exec winSchedule _ (twoWinCalls_exec _ _)⟩

/-- as do the configurations. -/
example : (∀ e ∈ launchConfig.envp, e ≠ [] ∧ (0 : UInt8) ∉ e ∧ ¬ NamesChannel e) ∧
    (∀ e ∈ secondConfig.envp, e ≠ [] ∧ (0 : UInt8) ∉ e ∧ ¬ NamesChannel e) ∧
    (∀ n, ((firstOs.rounds n).pid ≠ 0)) := by
  refine ⟨?_, ?_, fun n => show (77 : BitVec 32) ≠ 0 by decide⟩
  · have h : launchConfig.envp = [utf8 c!"A=1"] := by decide
    intro e hm
    rw [h, List.mem_singleton] at hm
    subst hm
    exact ⟨by decide, by decide, by unfold NamesChannel; decide⟩
  · intro e hm
    cases hm

/-- What the process created by call `j` has: its handles and attributes. -/
def startedHandles (w : WinCreators) (j : Nat) : Option (HTable × List ProcAttr) :=
  (w.calls j).bind fun x => x.child.map fun ch => (ch.handles, ch.attributes)

/-- Both workers are created, the first with handles 8 and 16, the second with handle 32, -/
example : startedHandles (winSchedule.foldl WinCreators.turn (twoWinCalls winGoodRound winGoodRound)).2 0 =
      some ([(8, 3), (16, 0)], [.securityCapabilities 1, .allApplicationPackagesPolicy 1, .handleList [8, 16],
        .childProcessPolicy 1, .mitigationPolicy 0x10111305]) ∧
    startedHandles (winSchedule.foldl WinCreators.turn (twoWinCalls winGoodRound winGoodRound)).2 1 =
      some ([(32, 5)], [.securityCapabilities 0, .allApplicationPackagesPolicy 1, .handleList [32], .childProcessPolicy 1,
        .mitigationPolicy 0x10111305]) := by
  decide +kernel

/-- although, when the second process was created, the first call's end for its worker was open and inheritable, -/
example : ((winSchedule.take 20).foldl WinCreators.turn (twoWinCalls winGoodRound winGoodRound)).2.world.pw.handles =
      [(32, 5), (28, 4), (8, 3), (4, 2), (12, 1), (16, 0)] ∧
    ((winSchedule.take 20).foldl WinCreators.turn (twoWinCalls winGoodRound winGoodRound)).2.world.inheritable = [32, 8, 16] := by
  decide +kernel

/-- and the broker is left with its end of each channel and two handles of each process. -/
example : (winSchedule.foldl WinCreators.turn (twoWinCalls winGoodRound winGoodRound)).2.world.pw.handles =
      [(40, 6), (24, 7), (20, 7), (36, 6), (28, 4), (4, 2), (12, 1), (16, 0)] ∧
    (winSchedule.foldl WinCreators.turn (twoWinCalls winGoodRound winGoodRound)).2.world.start.profiles = [0, 1] ∧
    ((winSchedule.foldl WinCreators.turn (twoWinCalls winGoodRound winGoodRound)).2.calls 0).map (·.phase.over) = some true ∧
    ((winSchedule.foldl WinCreators.turn (twoWinCalls winGoodRound winGoodRound)).2.calls 1).map (·.phase.over) = some true := by
  decide +kernel

/-- `HoldsHandle`, computed. -/
def holdsHandle (j : Nat) (ls : List WinCreateEvent) (h : BitVec 64) : Bool :=
  ls.foldl (fun held l => match l with
    | .step k before after =>
      if k = j then (after.pw.handles.get h).isSome && (held || (before.pw.handles.get h).isNone) else held
    | .made _ _ _ _ _ => held) false

theorem holdsHandle_iff (j : Nat) (h : BitVec 64) (ls : List WinCreateEvent) :
    holdsHandle j ls h = true ↔ HoldsHandle j ls h := by
  unfold holdsHandle HoldsHandle
  have : ∀ (ls : List WinCreateEvent) (b : Bool) (f : BitVec 64 → Prop), (b = true ↔ f h) →
      ((ls.foldl (fun held l => match l with
        | .step k before after =>
          if k = j then (after.pw.handles.get h).isSome && (held || (before.pw.handles.get h).isNone) else held
        | .made _ _ _ _ _ => held) b) = true ↔
      (ls.foldl (fun held l => match l with
        | .step k before after =>
          if k = j then fun h => after.pw.handles.get h ≠ none ∧ (held h ∨ before.pw.handles.get h = none) else held
        | .made _ _ _ _ _ => held) f) h) := by
    intro ls
    induction ls with
    | nil => exact fun b f hb => hb
    | cons l ls ih =>
      intro b f hb
      rw [List.foldl_cons, List.foldl_cons]
      apply ih
      cases l with
      | made => exact hb
      | step k before after =>
        by_cases hk : k = j
        · simp only [if_pos hk, Bool.and_eq_true, Bool.or_eq_true, hb, Option.isNone_iff_eq_none, ne_eq]
          rw [Option.isSome_iff_ne_none]
        · simp only [if_neg hk, hb]
  exact this ls false _ (by simp)

def WPhase.isFailed : WPhase → Bool
  | .failed none => true
  | _ => false

theorem WPhase.isFailed_eq {ph : WPhase} (h : ph.isFailed = true) : ph = .failed none := by
  unfold WPhase.isFailed at h
  split at h
  · rfl
  · cases h

/-- After two of its system calls, the first call has two handles; 15 more follow. -/
example : HoldsHandle 0 ((winSchedule.take 2).foldl WinCreators.turn (twoWinCalls winGoodRound winGoodRound)).1 8 := by
  rw [← holdsHandle_iff]
  decide +kernel

example : ownCalls 0 (winSchedule.foldl WinCreators.turn (twoWinCalls winGoodRound winGoodRound)).1 = 17 := by
  decide +kernel

theorem channel_free {r : Option (PipeOutcome × PipeWorld)} {h : BitVec 64}
    (h1 : r.map (fun r => r.2.handles.get h) = some none) {a b : BitVec 64} {pw : PipeWorld}
    (h2 : r = some (.channel a b, pw)) : pw.handles.get h = none := by
  subst h2
  simpa using h1

/-- The hypotheses of `C132_alone`. -/
example : (∀ h ∈ launchWorld.inheritable, launchWorld⟪h⟫ ≠ none) ∧ (∀ k, othersActs (firstOs.pipes k) = []) ∧
    firstOs.hProcess ≠ 0 ∧ ∀ a b pw, channelNew firstOs.pid firstOs.pipes firstOs.tries 0 0 launchWorld.pw =
      some (.channel a b, pw) → pw.handles.get firstOs.hProcess = none := by
  refine ⟨noWinCalls_ok.inheritable, fun k => rfl, by decide, ?_⟩
  intro a b pw h
  exact channel_free (by decide +kernel) h

/-- C132 is false when the system refuses the list of handles: the worker of one call then has the end of the channel that
another call, in progress, has made for its own worker, which nobody declared. -/
theorem C132_mixed_violated :
    ∃ (w w' : WinCreators) (ls : List WinCreateEvent), NoWinCalls w ∧ WinCreatorsExec DeclaredHandle w ls w' ∧
      ∃ (x y : WCreation) (ch : WinChild) (mine : BitVec 64) (o : Nat), w'.calls 0 = some y ∧ y.phase.over = false ∧
        w'.calls 1 = some x ∧ x.child = some ch ∧ HoldsHandle 0 ls mine ∧ w'.world.pw.handles.get mine = some o ∧
        ¬ DeclaredHandle x.policy x.config mine ∧ ch.handles.get mine = some o := by
  let r : WinRound := { winGoodRound with setOk := fun | .handleList _ => false | _ => true }
  obtain ⟨s, hs⟩ : ∃ s, s = (List.replicate 8 0 ++ List.replicate 16 1).foldl WinCreators.turn (twoWinCalls winGoodRound r) :=
    ⟨_, rfl⟩
  refine ⟨noWinCalls, s.2, s.1, noWinCalls_ok, hs ▸ wturns_exec _ _ (twoWinCalls_exec _ _), ?_⟩
  have h0 : (s.2.calls 0).map (fun y => y.phase.over) = some false := by rw [hs]; decide +kernel
  have h1 : (s.2.calls 1).bind (fun x => x.child.map fun ch => ch.handles.get 8) = some (some 3) := by rw [hs]; decide +kernel
  have h2 : holdsHandle 0 s.1 8 = true := by rw [hs]; decide +kernel
  have h3 : s.2.world.pw.handles.get 8 = some 3 := by rw [hs]; decide +kernel
  have h4 : (s.2.calls 1).map (fun x => (x.policy.inheritedHandles, x.config.stdin, x.config.stdout, x.config.stderr)) =
      some ([], none, none, none) := by rw [hs]; decide +kernel
  obtain ⟨y, hy, h0⟩ := Option.map_eq_some_iff.1 h0
  obtain ⟨x, hx, h1⟩ := Option.bind_eq_some_iff.1 h1
  obtain ⟨ch, hc, h1⟩ := Option.map_eq_some_iff.1 h1
  refine ⟨x, y, ch, 8, 3, hy, h0, hx, hc, (holdsHandle_iff _ _ _).1 h2, h3, ?_, h1⟩
  rw [hx] at h4
  simp only [Option.map_some, Option.some.injEq, Prod.mk.injEq] at h4
  rintro ⟨raw, hd, -⟩
  simp only [Declared, h4.1, h4.2.1, h4.2.2.1, h4.2.2.2, List.not_mem_nil, reduceCtorEq, or_false] at hd

/-- C132 is false when `GetProcessId` fails: the creation has failed, and the handle of the process it has created is open. -/
theorem C132_leak_violated :
    ∃ (w w' : WinCreators) (ls : List WinCreateEvent), NoWinCalls w ∧ WinCreatorsExec DeclaredHandle w ls w' ∧
      ∃ (x : WCreation) (ch : WinChild) (n : BitVec 64), w'.calls 0 = some x ∧ x.phase = .failed none ∧ x.child = some ch ∧
        HoldsHandle 0 ls n ∧ w'.world.pw.handles.get n = some ch.object := by
  obtain ⟨s, hs⟩ : ∃ s, s = (List.replicate 16 0).foldl WinCreators.turn
    (twoWinCalls { winGoodRound with pid := 0 } winGoodRound) := ⟨_, rfl⟩
  refine ⟨noWinCalls, s.2, s.1, noWinCalls_ok, hs ▸ wturns_exec _ _ (twoWinCalls_exec _ _), ?_⟩
  have h0 : (s.2.calls 0).map (fun y => (y.phase.isFailed, y.child.map (·.object))) = some (true, some 4) := by rw [hs]; decide +kernel
  have h2 : holdsHandle 0 s.1 20 = true := by rw [hs]; decide +kernel
  have h3 : s.2.world.pw.handles.get 20 = some 4 := by rw [hs]; decide +kernel
  obtain ⟨x, hx, h0⟩ := Option.map_eq_some_iff.1 h0
  simp only [Prod.mk.injEq] at h0
  obtain ⟨ch, hc, h1⟩ := Option.map_eq_some_iff.1 h0.2
  exact ⟨x, ch, 20, hx, WPhase.isFailed_eq h0.1, hc, (holdsHandle_iff _ _ _).1 h2, by rw [h3, h1]⟩

end Iris
