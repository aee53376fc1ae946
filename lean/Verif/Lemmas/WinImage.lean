import Verif.Spec.WinImage
import Verif.Lemmas.WinHook
/-!
# Lemmas about redirecting functions in memory
-/
namespace Iris
open Spec Asm

/-- From `s`, all the states `x` goes through are related to `s`, and its result, if any, satisfies `Q`. -/
structure Runs {α : Type} (K : PState → PState → Prop) (s : PState) (x : Hooking α) (Q : α → PState → Prop) : Prop where
  trace : ∀ t ∈ (x s).1, K s t
  result : ∀ a s', (x s).2 = some (a, s') → Q a s'

variable {K : PState → PState → Prop} {α β : Type}

theorem runs_pure {s : PState} {a : α} {Q : α → PState → Prop} (h : Q a s) : Runs K s (pure a : Hooking α) Q :=
  ⟨fun t ht => (by cases ht), fun b s' hb => by cases hb; exact h⟩

theorem runs_fail {s : PState} {Q : α → PState → Prop} : Runs K s (Hooking.fail : Hooking α) Q :=
  ⟨fun t ht => (by cases ht), fun b s' hb => by cases hb⟩

theorem runs_get {s : PState} {Q : PState → PState → Prop} (h : Q s s) : Runs K s Hooking.get Q :=
  ⟨fun t ht => (by cases ht), fun b s' hb => by cases hb; exact h⟩

theorem runs_put {s s1 : PState} {Q : Unit → PState → Prop} (hk : K s s1) (h : Q () s1) :
    Runs K s (Hooking.put s1) Q :=
  ⟨fun t ht => by simp only [Hooking.put, List.mem_singleton] at ht; subst ht; exact hk,
   fun b s' hb => by cases hb; exact h⟩

theorem runs_bind {s : PState} {x : Hooking α} {f : α → Hooking β} {R : β → PState → Prop}
    (htrans : ∀ {a b c}, K a b → K b c → K a c)
    (h : Runs K s x fun a s' => K s s' ∧ Runs K s' (f a) R) : Runs K s (x >>= f) R := by
  constructor
  · intro t ht
    simp only [bind] at ht
    cases hx : x s with
    | mk tr r =>
      rw [hx] at ht
      cases r with
      | none => exact h.trace t (by rw [hx]; exact ht)
      | some r =>
        obtain ⟨a, s'⟩ := r
        simp only [List.mem_append] at ht
        have h1 := h.result a s' (by rw [hx])
        rcases ht with ht | ht
        · exact h.trace t (by rw [hx]; exact ht)
        · exact htrans h1.1 (h1.2.trace t ht)
  · intro b s2 hb
    simp only [bind] at hb
    cases hx : x s with
    | mk tr r =>
      rw [hx] at hb
      cases r with
      | none => cases hb
      | some r =>
        obtain ⟨a, s'⟩ := r
        exact (h.result a s' (by rw [hx])).2.result b s2 hb

theorem Runs.mono {s : PState} {x : Hooking α} {Q R : α → PState → Prop} (h : Runs K s x Q)
    (hq : ∀ a s', Q a s' → R a s') : Runs K s x R := ⟨h.trace, fun a s' ha => hq _ _ (h.result a s' ha)⟩

theorem Runs.and {s : PState} {x : Hooking α} {Q R : α → PState → Prop} (h : Runs K s x Q)
    (h2 : Runs K s x R) : Runs K s x fun a s' => Q a s' ∧ R a s' :=
  ⟨h.trace, fun a s' ha => ⟨h.result a s' ha, h2.result a s' ha⟩⟩

/-- A relation the steps of the code preserve. -/
structure PageFrame (K : PState → PState → Prop) : Prop where
  refl : ∀ s, K s s
  trans : ∀ {a b c}, K a b → K b c → K a c
  calls : ∀ s n, K s { s with calls := n }

theorem runs_load (hk : PageFrame K) {s : PState} {n : Nat} {a : BitVec 64} {Q : Nat → PState → Prop}
    (h : s.permits Prot.readable a n = true → Q (num s n a) s) : Runs K s (loadNat n a) Q := by
  refine runs_bind hk.trans (runs_get ⟨hk.refl s, ?_⟩)
  split
  · rename_i hp
    exact runs_pure (h hp)
  · exact runs_fail

theorem runs_systemCall (hk : PageFrame K) (os : PageOs) {s : PState} {Q : Bool → PState → Prop}
    (h : ∀ b, Q b { s with calls := s.calls + 1 }) : Runs K s (systemCall os) Q := by
  refine runs_bind hk.trans (runs_get ⟨hk.refl s, ?_⟩)
  refine runs_bind hk.trans (runs_put (hk.calls s _) ⟨hk.calls s _, ?_⟩)
  exact runs_pure (h _)

/-! ## No memory is both writable and executable -/

/-- The relation for it. -/
def KeepsWx (s t : PState) : Prop := WriteXorExecute s → WriteXorExecute t

theorem keepsWx_frame : PageFrame KeepsWx := ⟨fun _ h => h, fun h1 h2 h => h2 (h1 h), fun _ _ h => h⟩

/-- The protection is not a dangerous one. -/
def SafeProt (p : Prot) : Prop := p ≠ .executeReadWrite ∧ p ≠ .executeWriteCopy

theorem wx_iff (s : PState) : WriteXorExecute s ↔ ∀ p pr, s.prot p = some pr → SafeProt pr := by
  simp only [WriteXorExecute, PageWritable, PageExecutable, SafeProt]
  constructor
  · intro h p pr hp
    have := h p
    rw [hp] at this
    constructor
    · rintro rfl; exact this ⟨by simp, by simp⟩
    · rintro rfl; exact this ⟨by simp, by simp⟩
  · rintro h p ⟨h1, h2⟩
    cases hp : s.prot p with
    | none => rw [hp] at h1; simp at h1
    | some pr =>
      have := h p pr hp
      rw [hp] at h1 h2
      cases pr <;> simp_all

theorem wx_protect {s : PState} {mem : Mem 64} {a : BitVec 64} {size : Nat} {new : Prot} {n : Nat} (hn : SafeProt new) :
    KeepsWx s ⟨mem, fun p => if touches a size p then some new else s.prot p, n⟩ := by
  intro h
  rw [wx_iff] at h ⊢
  intro p pr hp
  simp only at hp
  split at hp
  · cases hp; exact hn
  · exact h p pr hp

/-- From a state without writable code. -/
def RunsWx {α : Type} (x : Hooking α) : Prop :=
  ∀ s, WriteXorExecute s → Runs KeepsWx s x fun _ s' => WriteXorExecute s'

theorem runsWx_bind {x : Hooking α} {f : α → Hooking β} (hx : RunsWx x) (hf : ∀ a, RunsWx (f a)) :
    RunsWx (x >>= f) := fun s hs =>
  runs_bind keepsWx_frame.trans ((hx s hs).mono fun a s' h => ⟨fun _ => h, hf a s' h⟩)

theorem runsWx_pure (a : α) : RunsWx (pure a : Hooking α) := fun _ hs => runs_pure hs
theorem runsWx_fail : RunsWx (Hooking.fail : Hooking α) := fun _ _ => runs_fail
theorem runsWx_get : RunsWx Hooking.get := fun _ hs => runs_get hs
theorem runsWx_load (n : Nat) (a : BitVec 64) : RunsWx (loadNat n a) := fun _ hs => runs_load keepsWx_frame fun _ => hs
theorem runsWx_systemCall (os : PageOs) : RunsWx (systemCall os) :=
  fun _ hs => runs_systemCall keepsWx_frame os fun _ => hs

theorem runsWx_store (a : BitVec 64) (l : List (BitVec 8)) : RunsWx (store a l) := by
  intro s hs
  refine runs_bind keepsWx_frame.trans (runs_get ⟨fun h => h, ?_⟩)
  split
  · exact runs_put (fun h => h) hs
  · exact runs_fail

theorem runs_virtualProtect (hk : PageFrame K) (os : PageOs) {s : PState} {a : BitVec 64} {size : Nat} {new : Prot}
    {Q : Option Prot → PState → Prop} (h0 : Q none { s with calls := s.calls + 1 })
    (h1 : (∀ p, p ∈ pagesOf a size → s.prot p ≠ none) →
      K s ⟨s.mem, fun p => if touches a size p then some new else s.prot p, s.calls + 1⟩ ∧
      Q (s.prot (pageOf a)) ⟨s.mem, fun p => if touches a size p then some new else s.prot p, s.calls + 1⟩)
    (hc : ∀ t, K s t → K { s with calls := s.calls + 1 } t) :
    Runs K s (virtualProtect os a size new) Q := by
  refine runs_bind hk.trans (runs_systemCall hk os fun ok => ⟨hk.calls s _, ?_⟩)
  refine runs_bind hk.trans (runs_get ⟨hk.refl _, ?_⟩)
  split
  · rename_i h
    simp only [Bool.and_eq_true, List.all_eq_true, Option.isSome_iff_ne_none] at h
    have h2 := h1 h.2
    exact runs_bind hk.trans (runs_put (hc _ h2.1) ⟨hc _ h2.1, runs_pure h2.2⟩)
  · exact runs_pure h0

theorem runs_virtualAlloc (hk : PageFrame K) (os : PageOs) {s : PState} {a : BitVec 64} {size : Nat} {new : Prot}
    {Q : Bool → PState → Prop} (h0 : Q false { s with calls := s.calls + 1 })
    (h1 : (∀ p, p ∈ pagesOf a size → s.prot p = none) →
      K s ⟨fun x => if touches a size (pageOf x) then 0 else s.mem x,
        fun p => if touches a size p then some new else s.prot p, s.calls + 1⟩ ∧
      Q true ⟨fun x => if touches a size (pageOf x) then 0 else s.mem x,
        fun p => if touches a size p then some new else s.prot p, s.calls + 1⟩)
    (hc : ∀ t, K s t → K { s with calls := s.calls + 1 } t) :
    Runs K s (virtualAlloc os a size new) Q := by
  refine runs_bind hk.trans (runs_systemCall hk os fun ok => ⟨hk.calls s _, ?_⟩)
  refine runs_bind hk.trans (runs_get ⟨hk.refl _, ?_⟩)
  split
  · rename_i h
    simp only [Bool.and_eq_true, List.all_eq_true, Option.isNone_iff_eq_none] at h
    have h2 := h1 h.2
    exact runs_bind hk.trans (runs_put (hc _ h2.1) ⟨hc _ h2.1, runs_pure h2.2⟩)
  · exact runs_pure h0

theorem wx_calls {s t : PState} {n : Nat} (h : KeepsWx s t) : KeepsWx { s with calls := n } t := h

theorem runsWx_hotpatch (os : PageOs) (size value : Nat) (location : BitVec 64) :
    RunsWx (hotpatch os size value location) := by
  intro s hs
  have hk := keepsWx_frame
  refine runs_bind hk.trans (Runs.mono (Q := fun (old : Prot) s' => SafeProt old ∧ WriteXorExecute s') ?_ ?_)
  · refine runs_bind hk.trans (runs_systemCall hk os fun ok => ⟨fun h => h, ?_⟩)
    split
    · refine runs_bind hk.trans (runs_virtualProtect hk os ⟨fun h => h, runs_fail⟩ (fun _ => ?_) fun t h => wx_calls h)
      have hsafe : SafeProt .readWrite := ⟨by decide, by decide⟩
      refine ⟨wx_protect hsafe, fun _ => wx_protect hsafe hs, ?_⟩
      simp only
      cases hp : s.prot (pageOf location) with
      | none => exact runs_fail
      | some old => exact runs_pure ⟨(wx_iff s).1 hs _ _ hp, wx_protect hsafe hs⟩
    · exact runs_fail
  · rintro old s1 ⟨h1, h2⟩
    refine ⟨fun _ => h2, ?_⟩
    refine runs_bind hk.trans ((runsWx_store _ _ s1 h2).mono fun _ s2 h3 => ⟨fun _ => h3, ?_⟩)
    refine runs_bind hk.trans (runs_virtualProtect hk os ⟨fun h => h, runs_fail⟩ (fun _ => ?_) fun t h => wx_calls h)
    refine ⟨wx_protect h1, fun _ => wx_protect h1 h3, ?_⟩
    split
    · exact runs_pure (wx_protect h1 h3)
    · exact runs_fail

theorem runsWx_makeTrampoline (os : PageOs) (a hook : BitVec 64) : RunsWx (makeTrampoline os a hook) := by
  have hk := keepsWx_frame
  refine runsWx_bind ?_ fun ok => ?_
  · intro s hs
    have hsafe : SafeProt .readWrite := ⟨by decide, by decide⟩
    exact runs_virtualAlloc hk os hs (fun _ => ⟨wx_protect hsafe, wx_protect hsafe hs⟩) fun t h => wx_calls h
  · split
    · refine runsWx_bind (runsWx_store _ _) fun _ => runsWx_bind ?_ fun r => ?_
      · intro s hs
        have hsafe : SafeProt .executeRead := ⟨by decide, by decide⟩
        exact runs_virtualProtect hk os hs (fun _ => ⟨wx_protect hsafe, wx_protect hsafe hs⟩) fun t h => wx_calls h
      · split
        · refine runsWx_bind (runsWx_systemCall os) fun ok => ?_
          split
          · exact runsWx_pure _
          · exact runsWx_fail
        · exact runsWx_fail
    · exact runsWx_fail

theorem runsWx_findTrampoline (os : PageOs) (hook : BitVec 64) (fuel : Nat) :
    ∀ c, RunsWx (findTrampoline os hook fuel c) := by
  induction fuel with
  | zero => intro c; exact runsWx_fail
  | succ fuel ih =>
    intro c
    simp only [findTrampoline]
    split
    · refine runsWx_bind (runsWx_systemCall os) fun ok => ?_
      split
      · refine runsWx_bind runsWx_get fun s => ?_
        split
        · exact runsWx_bind (runsWx_makeTrampoline _ _ _) fun _ => runsWx_pure _
        · exact ih _
      · exact runsWx_fail
    · exact runsWx_fail

theorem runsWx_hookExportsAt (os : PageOs) (fuel : Nat) (base orig hook table : BitVec 64) (n : Nat) :
    ∀ i tramp, RunsWx (hookExportsAt os fuel base orig hook table n i tramp) := by
  induction n with
  | zero => intro i tramp; exact runsWx_pure _
  | succ n ih =>
    intro i tramp
    simp only [hookExportsAt]
    refine runsWx_bind (runsWx_load _ _) fun rva => ?_
    split
    · split
      · exact runsWx_bind (runsWx_hotpatch _ _ _ _) fun _ => ih _ _
      · split
        · exact runsWx_bind (runsWx_pure _) fun a => runsWx_bind (runsWx_hotpatch _ _ _ _) fun _ => ih _ _
        · exact runsWx_bind (runsWx_findTrampoline _ _ _ _) fun a => runsWx_bind (runsWx_hotpatch _ _ _ _) fun _ => ih _ _
    · exact ih _ _

theorem runsWx_hookThunksAt (os : PageOs) (orig hook thunks : BitVec 64) (size fuel : Nat) :
    ∀ k, RunsWx (hookThunksAt os orig hook thunks size fuel k) := by
  induction fuel with
  | zero => intro k; exact runsWx_fail
  | succ fuel ih =>
    intro k
    simp only [hookThunksAt]
    refine runsWx_bind (runsWx_load _ _) fun thunk => ?_
    split
    · exact runsWx_pure _
    · split
      · split
        · exact runsWx_bind (runsWx_hotpatch _ _ _ _) fun _ => ih _
        · exact runsWx_fail
      · exact ih _

theorem runsWx_hookImportsAt (os : PageOs) (fuel : Nat) (base orig hook d : BitVec 64) (size steps : Nat) :
    ∀ j, RunsWx (hookImportsAt os fuel base orig hook d size steps j) := by
  induction steps with
  | zero => intro j; exact runsWx_fail
  | succ steps ih =>
    intro j
    simp only [hookImportsAt]
    refine runsWx_bind (runsWx_load _ _) fun _ => runsWx_bind (runsWx_load _ _) fun _ => ?_
    split
    · exact runsWx_pure _
    · exact runsWx_bind (runsWx_hookThunksAt _ _ _ _ _ _ _) fun _ => ih _

theorem runsWx_readHeaders (base : BitVec 64) : RunsWx (readHeaders base) := by
  refine runsWx_bind (runsWx_load _ _) fun _ => ?_
  split
  · refine runsWx_bind (runsWx_load _ _) fun _ => runsWx_bind (runsWx_load _ _) fun _ => ?_
    split
    · refine runsWx_bind (runsWx_load _ _) fun _ => ?_
      split
      · exact runsWx_pure _
      · split
        · exact runsWx_pure _
        · exact runsWx_fail
    · exact runsWx_fail
  · exact runsWx_fail

theorem runsWx_hookModuleAt (os : PageOs) (fuel : Nat) (base orig hook : BitVec 64) :
    RunsWx (hookModuleAt os fuel base orig hook) := by
  refine runsWx_bind (runsWx_readHeaders _) fun _ => runsWx_bind ?_ fun _ => ?_
  · refine runsWx_bind (runsWx_load _ _) fun _ => runsWx_bind (runsWx_load _ _) fun _ => ?_
    split
    · exact runsWx_bind (runsWx_load _ _) fun _ => runsWx_bind (runsWx_load _ _) fun _ =>
        runsWx_hookExportsAt _ _ _ _ _ _ _ _ _
    · exact runsWx_pure _
  · refine runsWx_bind (runsWx_load _ _) fun _ => runsWx_bind (runsWx_load _ _) fun _ => ?_
    split
    · exact runsWx_hookImportsAt _ _ _ _ _ _ _ _ _
    · exact runsWx_pure _

theorem runsWx_hookModulesFrom (os : PageOs) (fuel : Nat) (orig hook head : BitVec 64) (steps : Nat) :
    ∀ pos, RunsWx (hookModulesFrom os fuel orig hook head steps pos) := by
  induction steps with
  | zero => intro pos; exact runsWx_fail
  | succ steps ih =>
    intro pos
    simp only [hookModulesFrom]
    split
    · exact runsWx_pure _
    · exact runsWx_bind (runsWx_load _ _) fun _ => runsWx_bind (runsWx_hookModuleAt _ _ _ _ _) fun _ =>
        runsWx_bind (runsWx_load _ _) fun _ => ih _

theorem runsWx_hookAllAt (os : PageOs) (fuel : Nat) (peb : BitVec 64) (reqs : List HookRequest) :
    RunsWx (hookAllAt os fuel peb reqs) := by
  induction reqs with
  | nil => exact runsWx_pure _
  | cons r rest ih =>
    refine runsWx_bind ?_ fun _ => ih
    refine runsWx_bind (runsWx_systemCall os) fun _ => ?_
    split
    · refine runsWx_bind (runsWx_load _ _) fun _ => runsWx_bind (runsWx_systemCall os) fun _ =>
        runsWx_bind (runsWx_systemCall os) fun _ => ?_
      split
      · exact runsWx_bind (runsWx_load _ _) fun _ => runsWx_bind (runsWx_load _ _) fun _ =>
          runsWx_hookModulesFrom _ _ _ _ _ _ _
      · exact runsWx_fail
    · exact runsWx_fail

end Iris
