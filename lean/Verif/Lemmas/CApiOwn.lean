import Verif.Lemmas.CApi
import Verif.Spec.CApi
/-! # Who owns the descriptors given through the C API (lemmas for C79) -/
namespace Iris
open Spec

/-- The descriptors an object closes when it is dropped. -/
def CObj.owned : CObj → List Nat
  | .policy p => p.slots.filterMap id
  | .config c => c.held .stdin ++ c.held .stdout ++ c.held .stderr
  | .worker _ => []

def CState.owned (s : CState) (a : Nat) : List Nat :=
  match s.heap a with
  | some o => o.owned
  | none => []

/-- Every descriptor given has at most one owner, and none once it is closed. -/
structure Owned (s : CState) (g : List Nat) : Prop where
  nodup : ∀ a, (s.owned a).Nodup
  apart : ∀ a b, a ≠ b → ∀ x ∈ s.owned a, x ∉ s.owned b
  notClosed : ∀ a, ∀ x ∈ s.owned a, x ∉ s.closed
  once : s.closed.Nodup
  given : ∀ a, ∀ x ∈ s.owned a, x ∈ g
  closedGiven : ∀ x ∈ s.closed, x ∈ g

def ownedOf : Option CObj → List Nat
  | some o => o.owned
  | none => []

theorem CState.owned_eq (s : CState) (a : Nat) : s.owned a = ownedOf (s.heap a) := by
  unfold CState.owned ownedOf; cases s.heap a <;> rfl

theorem Owned.weaken {s : CState} {g g' : List Nat} (h : Owned s g) (hg : ∀ x ∈ g, x ∈ g') : Owned s g' :=
  ⟨h.nodup, h.apart, h.notClosed, h.once, fun a x hx => hg x (h.given a x hx),
    fun x hx => hg x (h.closedGiven x hx)⟩

/-- An object is replaced and descriptors are closed: those it had, or new ones. -/
theorem Owned.replace {s s' : CState} {g new : List Nat} (h : Owned s g) (a : Nat) (o : Option CObj)
    (l : List Nat) (hheap : s'.heap = fun q => if q = a then o else s.heap q)
    (hclosed : s'.closed = s.closed ++ l)
    (hnd : (ownedOf o ++ l).Nodup) (hfrom : ∀ x ∈ ownedOf o ++ l, x ∈ s.owned a ∨ x ∈ new)
    (hnew : ∀ x ∈ new, x ∉ g) : Owned s' (g ++ new) := by
  have ha : s'.owned a = ownedOf o := by rw [CState.owned_eq, hheap]; simp
  have hb : ∀ b, b ≠ a → s'.owned b = s.owned b := by
    intro b hb
    rw [CState.owned_eq, CState.owned_eq, hheap]
    simp [hb]
  have hl : ∀ x ∈ l, x ∉ s.closed := by
    intro x hx hc
    rcases hfrom x (List.mem_append_right _ hx) with h1 | h1
    · exact h.notClosed a x h1 hc
    · exact hnew x h1 (h.closedGiven x hc)
  have hother : ∀ b, b ≠ a → ∀ x ∈ s.owned b, x ∉ ownedOf o ++ l := by
    intro b hb x hx hc
    rcases hfrom x hc with h1 | h1
    · exact h.apart b a hb x hx h1
    · exact hnew x h1 (h.given b x hx)
  rw [List.nodup_append] at hnd
  obtain ⟨hn1, hn2, hn3⟩ := hnd
  refine ⟨?_, ?_, ?_, ?_, ?_, ?_⟩
  · intro b
    by_cases e : b = a
    · subst e; rw [ha]; exact hn1
    · rw [hb b e]; exact h.nodup b
  · intro b c hbc x hx hx'
    by_cases e : b = a
    · subst e
      rw [ha] at hx
      rw [hb c (Ne.symm hbc)] at hx'
      exact hother c (Ne.symm hbc) x hx' (List.mem_append_left _ hx)
    · rw [hb b e] at hx
      by_cases e' : c = a
      · subst e'
        rw [ha] at hx'
        exact hother b e x hx (List.mem_append_left _ hx')
      · rw [hb c e'] at hx'
        exact h.apart b c hbc x hx hx'
  · intro b x hx hc
    rw [hclosed, List.mem_append] at hc
    by_cases e : b = a
    · subst e
      rw [ha] at hx
      rcases hc with hc | hc
      · rcases hfrom x (List.mem_append_left _ hx) with h1 | h1
        · exact h.notClosed _ x h1 hc
        · exact hnew x h1 (h.closedGiven x hc)
      · exact hn3 x hx x hc rfl
    · rw [hb b e] at hx
      rcases hc with hc | hc
      · exact h.notClosed b x hx hc
      · exact hother b e x hx (List.mem_append_right _ hc)
  · rw [hclosed, List.nodup_append]
    exact ⟨h.once, hn2, fun x hx y hy e => hl y hy (e ▸ hx)⟩
  · intro b x hx
    by_cases e : b = a
    · subst e
      rw [ha] at hx
      rcases hfrom x (List.mem_append_left _ hx) with h1 | h1
      · exact List.mem_append_left _ (h.given _ x h1)
      · exact List.mem_append_right _ h1
    · rw [hb b e] at hx
      exact List.mem_append_left _ (h.given b x hx)
  · intro x hx
    rw [hclosed, List.mem_append] at hx
    rcases hx with hx | hx
    · exact List.mem_append_left _ (h.closedGiven x hx)
    · rcases hfrom x (List.mem_append_right _ hx) with h1 | h1
      · exact List.mem_append_left _ (h.given _ x h1)
      · exact List.mem_append_right _ h1

/-- An object with the same descriptors, or fewer. -/
theorem Owned.put {s : CState} {g : List Nat} (h : Owned s g) (a : Nat) (o : Option CObj)
    (hnd : (ownedOf o).Nodup) (hfrom : ∀ x ∈ ownedOf o, x ∈ s.owned a) : Owned (s.put a o) g := by
  have := h.replace (s' := s.put a o) (new := []) a o [] rfl (by simp [CState.put]) (by simpa using hnd)
    (by intro x hx; exact .inl (hfrom x (by simpa using hx))) (by simp)
  simpa using this

theorem Owned.alloc {s s' : CState} {g : List Nat} (h : Owned s g) (a : Nat) (o : CObj)
    (ho : o.owned = []) (hs : s.alloc a o = some s') : Owned s' g := by
  unfold CState.alloc at hs
  split at hs
  · cases hs
  · cases hs
    exact h.put a (some o) (by simp [ownedOf, ho]) (by simp [ownedOf, ho])

theorem fillSlot_owned (slots slots' : List (Option Nat)) (fd : Nat) (h : fillSlot slots fd = some slots') :
    (slots'.filterMap id).Perm (fd :: slots.filterMap id) := by
  induction slots generalizing slots' with
  | nil => cases h
  | cons x r ih =>
    cases x with
    | none =>
      simp only [fillSlot, Option.some.injEq] at h
      subst h
      simp
    | some y =>
      simp only [fillSlot, Option.map_eq_some_iff] at h
      obtain ⟨r', hr, rfl⟩ := h
      simp only [List.filterMap_cons, id]
      exact ((ih r' hr).cons y).trans (.swap _ _ _)

theorem configAt_owned (s : CState) (c : Nat) (x : CConfig) (h : s.configAt c = some x) :
    s.owned c = (CObj.config x).owned := by
  rw [CState.owned_eq, configAt_heap _ _ _ h]; rfl

theorem policyAt_owned (s : CState) (p : Nat) (x : CPolicy) (h : s.policyAt p = some x) :
    s.owned p = x.slots.filterMap id := by
  unfold CState.policyAt at h
  rw [CState.owned_eq]
  split at h
  · rename_i y hy; cases h; rw [hy]; rfl
  · cases h

theorem setStream_owned (x : CConfig) (h : Option Nat) (st : Stream)
    (hn : (CObj.config x).owned.Nodup) (hf : ∀ fd, h = some fd → fd ∉ (CObj.config x).owned) :
    ((CObj.config (x.setStream h st)).owned ++ x.held st).Nodup ∧
    ∀ y ∈ (CObj.config (x.setStream h st)).owned ++ x.held st,
      y ∈ (CObj.config x).owned ∨ y ∈ h.toList := by
  obtain ⟨inner, a, b, c⟩ := x
  cases st <;> cases a <;> cases b <;> cases c <;> cases h <;>
    simp_all [CObj.owned, CConfig.held, CConfig.setStream] <;> grind

theorem owned_step (abi : Abi) (s s' : CState) (c : CCall) (r : Reply) (g : List Nat) (hw : Owned s g)
    (h : s.step abi c = some (s', r)) (hnew : ∀ x ∈ given c, x ∉ g) : Owned s' (g ++ given c) := by
  have same : ∀ {t : CState}, Owned t g → Owned t (g ++ given c) :=
    fun h => h.weaken fun x hx => List.mem_append_left _ hx
  cases c with
  | policyNew audit addr =>
    simp only [CState.step, Option.map_eq_some_iff, Prod.mk.injEq] at h
    obtain ⟨s1, h1, rfl, _⟩ := h
    exact same (hw.alloc _ _ (by simp [CObj.owned]) h1)
  | policyFree p =>
    simp only [CState.step, Option.map_eq_some_iff, Prod.mk.injEq] at h
    obtain ⟨_, _, rfl, _⟩ := h
    exact same (hw.put _ none (by simp [ownedOf]) (by simp [ownedOf]))
  | allowInherit p raw =>
    simp only [CState.step, cAllowInherit] at h
    split at h
    · cases h; exact same hw
    · split at h
      · cases h; exact same hw
      · rename_i hnd hok
        have hg : given (.allowInherit p raw) = [(hnd.val.getD 0#32).toNat] := by
          rcases fromRaw_cases raw with ⟨hlt, hnd', hok', hval⟩ | ⟨hge, herr⟩
          · rw [hok] at hok'; cases hok'
            simp [given, hlt, hval]
          · rw [hok] at herr; simp at herr
        rw [hg] at hnew ⊢
        simp only [Option.map_eq_some_iff] at h
        obtain ⟨x, hx, h⟩ := h
        have ho := policyAt_owned _ _ _ hx
        have hfresh : ∀ y ∈ x.slots.filterMap id, y ≠ (hnd.val.getD 0#32).toNat := by
          intro y hy e
          exact hnew y (by simp [e]) (hw.given p y (by rw [ho]; exact hy))
        have hnd' : (x.slots.filterMap id).Nodup := by rw [← ho]; exact hw.nodup p
        split at h
        · simp only [Prod.mk.injEq] at h
          refine hw.replace p none (x.slots.filterMap id ++ [(hnd.val.getD 0#32).toNat])
            (by rw [← h.1]; rfl) (by rw [← h.1]; rfl) ?_ ?_ hnew
          · simp only [ownedOf, List.nil_append, List.nodup_append]
            exact ⟨hnd', by simp, fun y hy z hz => by
              simp only [List.mem_singleton] at hz; rw [hz]; exact hfresh y hy⟩
          · intro y hy
            simp only [ownedOf, List.nil_append, List.mem_append] at hy
            rw [ho]; exact hy
        · rename_i slots hfill
          simp only [Prod.mk.injEq] at h
          have hp := fillSlot_owned _ _ _ hfill
          refine hw.replace p _ [] (by rw [← h.1]; rfl) (by rw [← h.1]; simp [CState.put]) ?_ ?_ hnew
          · simp only [ownedOf, CObj.owned, List.append_nil]
            rw [hp.nodup_iff, List.nodup_cons]
            exact ⟨fun hm => hfresh _ hm rfl, hnd'⟩
          · intro y hy
            simp only [ownedOf, CObj.owned, List.append_nil] at hy
            rw [hp.mem_iff, List.mem_cons] at hy
            rw [ho]
            rcases hy with hy | hy
            · right; simp [hy]
            · left; exact hy
  | allowFs p path k =>
    simp only [CState.step, cAllowFs] at h
    split at h
    · cases h; exact same hw
    · split at h
      · cases h; exact same hw
      · split at h
        · cases h; exact same hw
        · simp only [Option.map_eq_some_iff, Prod.mk.injEq] at h
          obtain ⟨x, hx, rfl, _⟩ := h
          have ho := policyAt_owned _ _ _ hx
          exact same (hw.put _ _ (by simp only [ownedOf, CObj.owned]; rw [← ho]; exact hw.nodup p)
            (by simp only [ownedOf, CObj.owned]; rw [← ho]; exact fun _ h => h))
  | addLogCallback p cb =>
    simp only [CState.step] at h
    split at h
    · cases h; exact same hw
    · simp only [Option.map_eq_some_iff, Prod.mk.injEq] at h
      obtain ⟨x, hx, rfl, _⟩ := h
      have ho := policyAt_owned _ _ _ hx
      exact same (hw.put _ _ (by simp only [ownedOf, CObj.owned]; rw [← ho]; exact hw.nodup p)
        (by simp only [ownedOf, CObj.owned]; rw [← ho]; exact fun _ h => h))
  | configNew exe argv out addr =>
    simp only [CState.step] at h
    split at h
    · split at h
      · cases h; exact same hw
      · simp only [Option.map_eq_some_iff, Prod.mk.injEq] at h
        obtain ⟨s1, h1, rfl, _⟩ := h
        exact same (hw.alloc _ _ rfl h1)
    · cases h; exact same hw
  | configFree c =>
    simp only [CState.step, Option.map_eq_some_iff, Prod.mk.injEq] at h
    obtain ⟨x, hx, rfl, _⟩ := h
    have ho := configAt_owned _ _ _ hx
    have := hw.replace (s' := (s.put c none).close (x.held .stdin ++ x.held .stdout ++ x.held .stderr))
      (new := []) c none _ rfl rfl
      (by have := hw.nodup c; rw [ho] at this; simpa [ownedOf, CObj.owned] using this)
      (by intro y hy; left; rw [ho]; simpa [ownedOf, CObj.owned] using hy) (by simp)
    exact this
  | cwd c v =>
    simp only [CState.step, cConfigCall] at h
    split at h
    · cases h; exact same hw
    · simp only [Option.map_eq_some_iff, Prod.mk.injEq] at h
      obtain ⟨x, hx, rfl, _⟩ := h
      have ho := configAt_owned _ _ _ hx
      exact same (hw.put _ _ (by have := hw.nodup c; rw [ho] at this; exact this)
        (by rw [ho]; exact fun _ h => h))
  | env c v =>
    simp only [CState.step, cConfigCall] at h
    split at h
    · cases h; exact same hw
    · split at h
      · cases h; exact same hw
      · simp only [Option.map_eq_some_iff, Prod.mk.injEq] at h
        obtain ⟨x, hx, rfl, _⟩ := h
        have ho := configAt_owned _ _ _ hx
        exact same (hw.put _ _ (by have := hw.nodup c; rw [ho] at this; exact this)
          (by rw [ho]; exact fun _ h => h))
  | redirect st c raw =>
    simp only [CState.step, cRedirect] at h
    split at h
    · cases h; exact same hw
    · split at h
      · cases h; exact same hw
      · rename_i hnd hres
        have hg : given (.redirect st c raw) = hnd.toList := by
          split at hres
          · rename_i hr; cases hres; subst hr; simp [given]
          · rcases fromRaw_cases raw with ⟨hlt, h', hok', hval⟩ | ⟨hge, herr⟩
            · rw [hok'] at hres
              simp only [Except.map, Except.ok.injEq] at hres
              subst hres
              simp [given, hlt, hval]
            · rw [herr] at hres; simp [Except.map] at hres
        rw [hg] at hnew ⊢
        simp only [Option.map_eq_some_iff, Prod.mk.injEq] at h
        obtain ⟨x, hx, rfl, _⟩ := h
        have ho := configAt_owned _ _ _ hx
        have := setStream_owned x hnd st (by rw [← ho]; exact hw.nodup c) (by
          intro fd hfd hm
          rw [← ho] at hm
          exact hnew fd (by simp [hfd]) (hw.given c fd hm))
        exact hw.replace c _ _ rfl rfl this.1 (by rw [ho]; exact this.2) hnew
  | workerNew c p out addr caps os =>
    simp only [CState.step, cWorkerNew] at h
    split at h
    · cases h; exact same hw
    · simp only [Option.bind_eq_some_iff] at h
      obtain ⟨x, _, y, _, h⟩ := h
      have hw' : ∀ t run, Owned { s with table := t, running := run } g := fun t run =>
        ⟨hw.nodup, hw.apart, hw.notClosed, hw.once, hw.given, hw.closedGiven⟩
      split at h
      · simp only [Option.some.injEq, Prod.mk.injEq] at h
        rw [← h.1]; exact same (hw' _ _)
      · simp only [Option.map_eq_some_iff, Prod.mk.injEq] at h
        obtain ⟨s1, h1, rfl, _⟩ := h
        exact same ((hw' _ _).alloc _ _ rfl h1)
  | workerPid w out =>
    simp only [CState.step] at h
    split at h
    · cases h; exact same hw
    · simp only [Option.map_eq_some_iff, Prod.mk.injEq] at h
      obtain ⟨_, _, rfl, _⟩ := h
      exact same hw
  | workerFree w =>
    simp only [CState.step, Option.map_eq_some_iff, Prod.mk.injEq] at h
    obtain ⟨_, _, rfl, _⟩ := h
    exact same (hw.put _ none (by simp [ownedOf]) (by simp [ownedOf]))

theorem owned_run (abi : Abi) (calls : List CCall) (s s' : CState) (rs : List Reply) (g : List Nat)
    (hw : Owned s g) (hn : (g ++ calls.flatMap given).Nodup) (h : s.run abi calls = some (s', rs)) :
    Owned s' (g ++ calls.flatMap given) := by
  induction calls generalizing s rs g with
  | nil =>
    simp only [CState.run, Option.some.injEq, Prod.mk.injEq] at h
    obtain ⟨rfl, _⟩ := h
    simpa using hw
  | cons c cs ih =>
    simp only [CState.run, Option.bind_eq_some_iff, Option.map_eq_some_iff, Prod.mk.injEq] at h
    obtain ⟨⟨s1, r⟩, h1, ⟨s2, rs'⟩, h2, rfl, rfl⟩ := h
    simp only [List.flatMap_cons, ← List.append_assoc] at hn ⊢
    refine ih s1 rs' _ (owned_step abi s s1 c r g hw h1 ?_) hn h2
    intro x hx hg
    rw [List.nodup_append, List.nodup_append] at hn
    exact hn.1.2.2 x hg x hx rfl

theorem owned_start (t : FdTable) : Owned (CState.start t) [] := by
  have h : ∀ a, (CState.start t).owned a = [] := fun a => rfl
  have hc : (CState.start t).closed = [] := rfl
  refine ⟨?_, ?_, ?_, ?_, ?_, ?_⟩ <;> simp [h, hc]

end Iris
