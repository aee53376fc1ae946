import Verif.Spec.Children
/-! # Lemmas about the children of a Linux broker -/
namespace Iris
open Spec

/-- The child `x` is there, and no other has its number. -/
def KidAt (k : Kids) (x : Kid) : Prop := x ∈ k.list ∧ ∀ y ∈ k.list, y.pid = x.pid → y = x

theorem exec_at {k : Kids} {x : Kid} (h : KidAt k x) {pid : Nat} (hp : pid ≠ x.pid) : KidAt (k.exec pid) x := by
  refine ⟨?_, ?_⟩
  · simp only [Kids.exec, List.mem_map]
    exact ⟨x, h.1, if_neg (fun hc => hp hc.1.symm)⟩
  · intro y hy hyp
    simp only [Kids.exec, List.mem_map] at hy
    obtain ⟨z, hz, rfl⟩ := hy
    split
    · rename_i hc
      rw [if_pos hc] at hyp
      exact absurd (hc.1.symm.trans hyp) hp
    · rename_i hc
      rw [if_neg hc] at hyp
      exact h.2 z hz hyp

theorem exit_at {k : Kids} {x : Kid} (h : KidAt k x) {pid st : Nat} (hp : pid ≠ x.pid ∨ x.ended ≠ none) :
    KidAt (k.exit pid st) x := by
  have hx : ¬ (x.pid = pid ∧ x.ended = none) := fun hc => hp.elim (fun h => h hc.1.symm) (fun h => h hc.2)
  refine ⟨?_, ?_⟩
  · simp only [Kids.exit, List.mem_filterMap]
    exact ⟨x, h.1, if_neg hx⟩
  · intro y hy hyp
    simp only [Kids.exit, List.mem_filterMap] at hy
    obtain ⟨z, hz, hzy⟩ := hy
    by_cases hc : z.pid = pid ∧ z.ended = none
    · rw [if_pos hc] at hzy
      split at hzy
      · cases hzy
      · cases hzy
        have := h.2 z hz hyp
        subst this
        exact absurd hc hx
    · rw [if_neg hc] at hzy
      cases hzy
      exact h.2 _ hz hyp

theorem clone_at {k : Kids} {x : Kid} (h : KidAt k x) {flags : BitVec 32} {pid : Nat} (hp : pid ≠ x.pid) :
    KidAt (k.clone flags pid) x := by
  refine ⟨List.mem_cons_of_mem _ h.1, ?_⟩
  intro y hy hyp
  rcases List.mem_cons.1 hy with rfl | hy
  · exact absurd hyp hp
  · exact h.2 y hy hyp

theorem clone_new {k : Kids} {flags : BitVec 32} {pid : Nat} (hp : ¬ IsChild k pid) :
    KidAt (k.clone flags pid) ⟨pid, flags &&& 0xff#32, false, none⟩ := by
  refine ⟨List.mem_cons_self, ?_⟩
  intro y hy hyp
  rcases List.mem_cons.1 hy with rfl | hy
  · rfl
  · exact absurd ⟨y, hy, hyp⟩ hp

theorem ready_some {k : Kids} {w : Option Nat} {f : BitVec 32} {x : Kid} (h : k.ready w f = some x) :
    x ∈ k.list ∧ x.eligible w f = true ∧ x.ended ≠ none := by
  have h1 := List.mem_of_find?_eq_some h
  have h2 := List.find?_some h
  simp only [Bool.and_eq_true] at h2
  refine ⟨h1, h2.1, ?_⟩
  intro hc
  rw [hc] at h2
  exact absurd h2.2 (by simp)

theorem wait_child {k : Kids} {w : Option Nat} {f : BitVec 32} {pid st : Nat} (h : (k.wait w f).1 = .child pid st) :
    ∃ x, k.ready w f = some x ∧ x.pid = pid ∧ x.ended = some st := by
  unfold Kids.wait at h
  split at h
  · rename_i x hx
    obtain ⟨h1, h2, h3⟩ := ready_some hx
    simp only [Waited.child.injEq] at h
    refine ⟨x, hx, h.1, ?_⟩
    cases he : x.ended with
    | none => exact absurd he h3
    | some s => rw [he] at h; simp only [Option.getD_some] at h; rw [h.2]
  · split at h <;> cases h

/-- A child which has not ended, or is not considered, is not the one waited for. -/
theorem wait_not {k : Kids} {x : Kid} (h : KidAt k x) {w : Option Nat} {f : BitVec 32}
    (hx : x.ended = none ∨ x.eligible w f = false) (st : Nat) : (k.wait w f).1 ≠ .child x.pid st := by
  intro hc
  obtain ⟨y, hy, hp, he⟩ := wait_child hc
  obtain ⟨h1, h2, h3⟩ := ready_some hy
  have := h.2 y h1 hp
  subst this
  rcases hx with hx | hx
  · exact h3 hx
  · rw [hx] at h2; cases h2

theorem wait_at {k : Kids} {x : Kid} (h : KidAt k x) {w : Option Nat} {f : BitVec 32}
    (hx : ∀ st, (k.wait w f).1 ≠ .child x.pid st) : KidAt (k.wait w f).2 x := by
  unfold Kids.wait at hx ⊢
  split
  · rename_i y hy
    rw [hy] at hx
    have hne : x.pid ≠ y.pid := fun hc => hx _ (by rw [hc])
    refine ⟨List.mem_filter.2 ⟨h.1, by simpa using hne⟩, ?_⟩
    intro z hz hzp
    exact h.2 z (List.mem_filter.1 hz).1 hzp
  · exact h

theorem ignore_at {k : Kids} {x : Kid} (h : KidAt k x) {b : Bool} : KidAt { k with ignores := b } x := h

theorem at_isChild {k : Kids} {x : Kid} (h : KidAt k x) : IsChild k x.pid := ⟨x, h.1, rfl⟩

theorem create_at {k : Kids} {x : Kid} (h : KidAt k x) {os : ProcOs} {child : Option Child}
    (hf : ∀ ch, child = some ch → ¬ IsChild k ch.pid) : KidAt (k.create os child) x := by
  cases child with
  | none => exact h
  | some ch =>
    have hp : ch.pid ≠ x.pid := fun hc => hf ch rfl (hc ▸ at_isChild h)
    simp only [Kids.create]
    split
    · exact exec_at (clone_at h hp) hp
    · exact exit_at (clone_at h hp) (.inl hp)
    · exact exit_at (clone_at h hp) (.inl hp)

/-- A child stays as it is while it does not end, is not waited for, and no other gets its number. -/
theorem step_at {k : Kids} {x : Kid} (h : KidAt k x) (e : KidEvent)
    (hf : ∀ c ch, e = .create c → c.run.child = some ch → ¬ IsChild k ch.pid)
    (he : ∀ st, e = .ended x.pid st → x.ended ≠ none)
    (hw : ∀ w f, e = .wait w f → ∀ st, (k.wait w f).1 ≠ .child x.pid st) : KidAt (k.step e) x := by
  cases e with
  | create c => exact create_at h (fun ch hch => hf c ch rfl hch)
  | freed pid => exact h
  | ended pid st =>
    refine exit_at h ?_
    by_cases hp : pid = x.pid
    · subst hp; exact .inr (he st rfl)
    · exact .inl hp
  | wait w f => exact wait_at h (hw w f rfl)
  | ignore b => exact ignore_at h

theorem run_at {x : Kid} : ∀ (l : List KidEvent) {k : Kids}, KidAt k x → FreshNumbers k l →
    (x.ended = none → ∀ st, .ended x.pid st ∉ l) → NotCollected x.pid k l → KidAt (k.run l) x
  | [], _, h, _, _, _ => h
  | e :: l, k, h, hf, he, hn => by
    refine run_at l (step_at h e hf.1 ?_ hn.1) hf.2 ?_ hn.2
    · intro st hc hx
      exact he hx st (hc ▸ List.mem_cons_self)
    · intro hx st hm
      exact he hx st (List.mem_cons_of_mem _ hm)

/-- One that runs is not waited for. -/
theorem running_notCollected {x : Kid} (hx : x.ended = none) : ∀ (l : List KidEvent) {k : Kids}, KidAt k x →
    FreshNumbers k l → (∀ st, .ended x.pid st ∉ l) → NotCollected x.pid k l
  | [], _, _, _, _ => trivial
  | e :: l, k, h, hf, he => by
    have hw : ∀ w f, e = .wait w f → ∀ st, (k.wait w f).1 ≠ .child x.pid st :=
      fun w f _ st => wait_not h (.inl hx) st
    refine ⟨hw, running_notCollected hx l (step_at h e hf.1 ?_ hw) hf.2 fun st hm => he st (List.mem_cons_of_mem _ hm)⟩
    intro st hc
    exact absurd (hc ▸ List.mem_cons_self) (he st)

theorem flag30 (f : BitVec 32) : f &&& 0x40000000#32 ≠ 0#32 ↔ f.getLsbD 30 = true := by
  have h := BitVec.and_twoPow f 30
  have : (0x40000000#32) = BitVec.twoPow 32 30 := by decide
  rw [this, h]
  cases f.getLsbD 30 <;> simp <;> decide

theorem flag31 (f : BitVec 32) : f &&& 0x80000000#32 ≠ 0#32 ↔ f.getLsbD 31 = true := by
  have h := BitVec.and_twoPow f 31
  have : (0x80000000#32) = BitVec.twoPow 32 31 := by decide
  rw [this, h]
  cases f.getLsbD 31 <;> simp <;> decide

/-- An ordinary `waitpid` considers exactly the children whose exit signal is SIGCHLD. -/
theorem eligible_usual (x : Kid) (w : Option Nat) {f : BitVec 32} (h30 : f.getLsbD 30 = false)
    (h31 : f.getLsbD 31 = false) :
    x.eligible w f = true ↔ (w = none ∨ w = some x.pid) ∧ x.exitSignal = SIGCHLD := by
  simp only [Kid.eligible, decide_eq_true_eq, flag30, flag31, h30, h31]
  simp

theorem cloneFlags_signal (os : ProcOs) : cloneFlags os &&& 0xff#32 = 0#32 := by
  unfold cloneFlags
  split <;> decide

/-- One whose exit signal is not SIGCHLD is not waited for by an ordinary `waitpid`. -/
theorem clone_notCollected {x : Kid} (hx : x.exitSignal ≠ SIGCHLD) (hend : x.ended ≠ none) :
    ∀ (l : List KidEvent) {k : Kids}, KidAt k x → FreshNumbers k l → WaitsAsUsual l → NotCollected x.pid k l
  | [], _, _, _, _ => trivial
  | e :: l, k, h, hf, hu => by
    have hw : ∀ w f, e = .wait w f → ∀ st, (k.wait w f).1 ≠ .child x.pid st := by
      intro w f hc st
      obtain ⟨h30, h31⟩ := hu w f (hc ▸ List.mem_cons_self)
      refine wait_not h (.inr ?_) st
      cases hb : x.eligible w f with
      | false => rfl
      | true => exact absurd ((eligible_usual x w h30 h31).1 hb).2 hx
    exact ⟨hw, clone_notCollected hx hend l (step_at h e hf.1 (fun _ _ => hend) hw) hf.2
      fun w f hm => hu w f (List.mem_cons_of_mem _ hm)⟩

/-- What a creation adds. -/
theorem create_started {k : Kids} {os : ProcOs} {ch : Child} {img : Image} (hf : ¬ IsChild k ch.pid)
    (hs : ch.ending = .started img) : KidAt (k.create os (some ch)) ⟨ch.pid, SIGCHLD, true, none⟩ := by
  simp only [Kids.create, hs]
  have h := clone_new (flags := cloneFlags os) hf
  refine ⟨?_, ?_⟩
  · simp only [Kids.exec, List.mem_map]
    exact ⟨_, h.1, by rw [if_pos ⟨rfl, rfl⟩]⟩
  · intro y hy hyp
    simp only [Kids.exec, List.mem_map] at hy
    obtain ⟨z, hz, rfl⟩ := hy
    have hzp : z.pid = ch.pid := by
      split at hyp
      · rename_i hc; exact hc.1
      · exact hyp
    have := h.2 z hz hzp
    subst this
    rw [if_pos ⟨rfl, rfl⟩]

/-- The status with which a new process that executes no program ends. -/
def endStatus : EntryEnd → Option Nat
  | .started _ => none
  | .execFailed e _ => some (e % 256 * 256)
  | .gaveUp => some 256

theorem exit_new {k : Kids} {x : Kid} {st : Nat} (h : KidAt k x) (hx : x.ended = none) (hs : x.exitSignal ≠ SIGCHLD) :
    KidAt (k.exit x.pid st) { x with ended := some st } := by
  refine ⟨?_, ?_⟩
  · simp only [Kids.exit, List.mem_filterMap]
    exact ⟨x, h.1, by rw [if_pos ⟨rfl, hx⟩, if_neg (fun hc => hs hc.1)]⟩
  · intro y hy hyp
    simp only [Kids.exit, List.mem_filterMap] at hy
    obtain ⟨z, hz, hzy⟩ := hy
    have hzp : z.pid = x.pid := by
      split at hzy
      · rename_i hc; exact hc.1
      · cases hzy; exact hyp
    have := h.2 z hz hzp
    subst this
    rw [if_pos ⟨rfl, hx⟩, if_neg (fun hc => hs hc.1)] at hzy
    exact (Option.some.inj hzy).symm

theorem create_ended {k : Kids} {os : ProcOs} {ch : Child} {st : Nat} (hf : ¬ IsChild k ch.pid)
    (hs : endStatus ch.ending = some st) : KidAt (k.create os (some ch)) ⟨ch.pid, 0#32, false, some st⟩ := by
  have h := clone_new (flags := cloneFlags os) hf
  rw [cloneFlags_signal] at h
  have h2 := exit_new (st := st) h rfl (by show (0#32) ≠ SIGCHLD; decide)
  simp only [Kids.create]
  cases he : ch.ending with
  | started img => rw [he] at hs; cases hs
  | execFailed e wrote =>
    rw [he] at hs
    simp only [endStatus, Option.some.injEq] at hs
    subst hs
    exact h2
  | gaveUp =>
    rw [he] at hs
    simp only [endStatus, Option.some.injEq] at hs
    subst hs
    exact h2

/-- The others are as before. -/
theorem create_others {k : Kids} {os : ProcOs} {child : Option Child} {pid : Nat}
    (h : IsChild (k.create os child) pid) : IsChild k pid ∨ ∃ ch, child = some ch ∧ ch.pid = pid := by
  cases child with
  | none => exact .inl h
  | some ch =>
    have key : ∀ y ∈ (k.create os (some ch)).list, ∃ z ∈ (k.clone (cloneFlags os) ch.pid).list, z.pid = y.pid := by
      intro y hy
      simp only [Kids.create] at hy
      have hexit : ∀ st, y ∈ ((k.clone (cloneFlags os) ch.pid).exit ch.pid st).list →
          ∃ z ∈ (k.clone (cloneFlags os) ch.pid).list, z.pid = y.pid := by
        intro st hy
        simp only [Kids.exit, List.mem_filterMap] at hy
        obtain ⟨z, hz, hzy⟩ := hy
        split at hzy
        · split at hzy
          · cases hzy
          · cases hzy; exact ⟨z, hz, rfl⟩
        · cases hzy; exact ⟨_, hz, rfl⟩
      split at hy
      · simp only [Kids.exec, List.mem_map] at hy
        obtain ⟨z, hz, rfl⟩ := hy
        refine ⟨z, hz, ?_⟩
        split <;> rfl
      · exact hexit _ hy
      · exact hexit _ hy
    obtain ⟨y, hy, rfl⟩ := h
    obtain ⟨z, hz, hzp⟩ := key y hy
    rcases List.mem_cons.1 hz with rfl | hz
    · exact .inr ⟨ch, rfl, hzp⟩
    · exact .inl ⟨z, hz, hzp⟩

end Iris
