import Verif.Spec.WinCreators
import Verif.Lemmas.WinLaunch
import Verif.Lemmas.WorkerNew
/-!
# Calls of `Worker::new` do not touch each other's handles
-/
namespace Iris
open Spec

local notation:max w "⟪" h "⟫" => HTable.get (PipeWorld.handles (WinWorld.pw w)) h

theorem HTable.get_cons_if (t : HTable) (k h : BitVec 64) (o : Nat) :
    HTable.get ((k, o) :: t) h = if h = k then some o else t.get h := by
  by_cases e : h = k
  · subst e; rw [if_pos rfl, HTable.get_cons]
  · rw [if_neg e, HTable.get_cons_ne _ _ (Ne.symm e)]

theorem HTable.get_close_if (t : HTable) (k h : BitVec 64) :
    (t.close k).get h = if h = k then none else t.get h := by
  simp only [HTable.get, HTable.close, List.find?_filter]
  by_cases e : h = k
  · subst e
    rw [if_pos rfl, Option.map_eq_none_iff, List.find?_eq_none]
    intro x _
    by_cases hx : x.1 = h <;> simp [hx]
  · rw [if_neg e]
    congr 2
    funext x
    by_cases hx : x.1 = h
    · subst hx; simp [e]
    · simp [hx]

/-! ## One system call, seen from outside -/

/-- What is always true of the state. -/
structure WinWf (w : WinWorld) : Prop where
  keys : (w.pw.handles.map (·.1)).Nodup
  inheritable : ∀ h ∈ w.inheritable, w⟪h⟫ ≠ none
  objects : ∀ h o, w⟪h⟫ = some o → o < w.pw.next
  servers : ∀ i ∈ w.pw.pipes, i.server < w.pw.next
  single : (w.pw.pipes.map (·.server)).Nodup

/-- The objects of these handles have no other handles. -/
def Closed (w : WinWorld) (o : List (BitVec 64)) : Prop := ∀ h ∈ o, ∀ k, w⟪k⟫ = w⟪h⟫ → k ∈ o

/-- What is true of the handles of a call. -/
structure OwnOk (w : WinWorld) (o : List (BitVec 64)) : Prop where
  nodup : o.Nodup
  present : ∀ h ∈ o, w⟪h⟫ ≠ none
  closed : Closed w o

/-- A system call changes only handles of `o`; `o'` is what belongs to the call afterwards. -/
structure WMoves (w : WinWorld) (o : List (BitVec 64)) (w' : WinWorld) (o' : List (BitVec 64)) : Prop where
  wf : WinWf w'
  own : OwnOk w' o'
  keep : ∀ h, w⟪h⟫ ≠ none → h ∉ o → SameHandle w w' h
  fresh : ∀ h ∈ o', h ∈ o ∨ w⟪h⟫ = none
  gain : ∀ h, w⟪h⟫ = none → w'⟪h⟫ ≠ none → h ∈ o'
  objs : ∀ h x, w'⟪h⟫ = some x → (∃ k, w⟪k⟫ = some x ∧ (k = h ∨ k ∈ o)) ∨ w.pw.next ≤ x
  next : w.pw.next ≤ w'.pw.next
  ids : w.start.nextId ≤ w'.start.nextId
  pipes : ∀ i, i.server < w.pw.next → (∀ h ∈ o, w⟪h⟫ ≠ some i.server) → (i ∈ w'.pw.pipes ↔ i ∈ w.pw.pipes)
  names : ∀ i' ∈ w'.pw.pipes, (∃ i ∈ w.pw.pipes, i.name = i'.name ∧ i.server = i'.server) ∨
    ∀ i ∈ w.pw.pipes, i.name ≠ i'.name

/-- Nothing of this changes. -/
theorem WMoves.sub {w w' : WinWorld} {o o' : List (BitVec 64)} (hw : WinWf w) (h1 : w'.pw = w.pw)
    (h2 : w'.inheritable = w.inheritable) (h3 : w.start.nextId ≤ w'.start.nextId) (hs : ∀ h ∈ o', h ∈ o)
    (ho : OwnOk w o') : WMoves w o w' o' := by
  refine ⟨⟨?_, ?_, ?_, ?_, ?_⟩, ⟨ho.nodup, ?_, ?_⟩, ?_, fun h hh => .inl (hs h hh), ?_, ?_, ?_, h3, ?_, ?_⟩
  · rw [h1]; exact hw.keys
  · rw [h1, h2]; exact hw.inheritable
  · rw [h1]; exact hw.objects
  · rw [h1]; exact hw.servers
  · rw [h1]; exact hw.single
  · rw [h1]; exact ho.present
  · unfold Closed; rw [h1]; exact ho.closed
  · intro h _ _; unfold SameHandle; rw [h1, h2]; exact ⟨rfl, .rfl⟩
  · intro h a b; rw [h1] at b; exact absurd a b
  · intro h x hx; rw [h1] at hx; exact .inl ⟨h, hx, .inl rfl⟩
  · rw [h1]; exact Nat.le_refl _
  · intro i _ _; rw [h1]
  · intro i hi; rw [h1] at hi; exact .inl ⟨i, hi, rfl, rfl⟩

theorem WMoves.stay {w w' : WinWorld} {o : List (BitVec 64)} (hw : WinWf w) (h1 : w'.pw = w.pw)
    (h2 : w'.inheritable = w.inheritable) (h3 : w.start.nextId ≤ w'.start.nextId) (ho : OwnOk w o) : WMoves w o w' o :=
  .sub hw h1 h2 h3 (fun _ h => h) ho

theorem close_get (w : WinWorld) (k h : BitVec 64) : (w.close k)⟪h⟫ = if h = k then none else w⟪h⟫ :=
  HTable.get_close_if _ _ _

theorem mem_close_inheritable {w : WinWorld} {k h : BitVec 64} :
    h ∈ (w.close k).inheritable ↔ h ∈ w.inheritable ∧ h ≠ k := by
  simp [WinWorld.close]

theorem mem_close_pipes {w : WinWorld} {k : BitVec 64} {i : PipeInstance} :
    i ∈ (w.close k).pw.pipes ↔ i ∈ w.pw.pipes ∧ w⟪k⟫ ≠ some i.server := by
  simp [WinWorld.close, PipeWorld.close]

/-- `CloseHandle`. -/
theorem WMoves.close {w : WinWorld} {k : BitVec 64} {o o' : List (BitVec 64)} (hw : WinWf w) (ho : OwnOk w o) (hk : k ∈ o)
    (hn : o'.Nodup) (hm : ∀ h, h ∈ o' ↔ h ∈ o ∧ h ≠ k) : WMoves w o (w.close k) o' := by
  refine ⟨⟨?_, ?_, ?_, ?_, ?_⟩, ⟨hn, ?_, ?_⟩, ?_, fun h hh => .inl ((hm h).1 hh).1, ?_, ?_, Nat.le_refl _, Nat.le_refl _, ?_, ?_⟩
  · exact (List.filter_sublist.map _).nodup hw.keys
  · intro h hh
    rw [mem_close_inheritable] at hh
    rw [close_get, if_neg hh.2]
    exact hw.inheritable h hh.1
  · intro h x hx
    rw [close_get] at hx
    split at hx
    · cases hx
    · exact hw.objects h x hx
  · intro i hi
    exact hw.servers i (mem_close_pipes.1 hi).1
  · exact (List.filter_sublist.map _).nodup hw.single
  · intro h hh
    rw [close_get, if_neg ((hm h).1 hh).2]
    exact ho.present h ((hm h).1 hh).1
  · intro h hh n hn
    have := (hm h).1 hh
    rw [close_get, close_get, if_neg this.2] at hn
    split at hn
    · exact absurd hn.symm (ho.present h this.1)
    · rename_i hne
      exact (hm n).2 ⟨ho.closed h this.1 n hn, hne⟩
  · intro h _ hh
    have hne : h ≠ k := by rintro rfl; exact hh hk
    refine ⟨?_, ?_⟩
    · rw [close_get, if_neg hne]
    · rw [mem_close_inheritable]; exact ⟨fun h => h.1, fun h => ⟨h, hne⟩⟩
  · intro h a b
    rw [close_get] at b
    split at b
    · exact absurd rfl b
    · exact absurd a b
  · intro h x hx
    rw [close_get] at hx
    split at hx
    · cases hx
    · exact .inl ⟨h, hx, .inl rfl⟩
  · intro i _ hi
    rw [mem_close_pipes]
    exact ⟨fun h => h.1, fun h => ⟨h, hi k hk⟩⟩
  · intro i hi
    exact .inl ⟨i, (mem_close_pipes.1 hi).1, rfl, rfl⟩

/-- A new handle `k` to an object `x`: a new one, or one of those of `o`. -/
theorem WMoves.add {w w' : WinWorld} {k : BitVec 64} {x : Nat} {o o' : List (BitVec 64)} (hw : WinWf w) (ho : OwnOk w o)
    (hf : w⟪k⟫ = none) (hh : w'.pw.handles = (k, x) :: w.pw.handles) (hi : w'.inheritable = w.inheritable)
    (hx : x = w.pw.next ∨ ∃ h ∈ o, w⟪h⟫ = some x) (hxn : x < w'.pw.next) (hnext : w.pw.next ≤ w'.pw.next)
    (hids : w.start.nextId ≤ w'.start.nextId) (hn : o'.Nodup) (hm : ∀ h, h ∈ o' ↔ h ∈ o ∨ h = k)
    (hs : ∀ i ∈ w'.pw.pipes, i.server < w'.pw.next) (hd : (w'.pw.pipes.map (·.server)).Nodup)
    (hp : ∀ i, i.server < w.pw.next → (∀ h ∈ o, w⟪h⟫ ≠ some i.server) → (i ∈ w'.pw.pipes ↔ i ∈ w.pw.pipes))
    (hnm : ∀ i' ∈ w'.pw.pipes, (∃ i ∈ w.pw.pipes, i.name = i'.name ∧ i.server = i'.server) ∨
      ∀ i ∈ w.pw.pipes, i.name ≠ i'.name) : WMoves w o w' o' := by
  have get : ∀ h, w'⟪h⟫ = if h = k then some x else w⟪h⟫ := fun h => by rw [hh, HTable.get_cons_if]
  have old : ∀ h, w⟪h⟫ ≠ none → w'⟪h⟫ = w⟪h⟫ := by
    intro h hne
    rw [get, if_neg]
    rintro rfl
    exact hne hf
  refine ⟨⟨?_, ?_, ?_, hs, hd⟩, ⟨hn, ?_, ?_⟩, ?_, ?_, ?_, ?_, hnext, hids, hp, hnm⟩
  · rw [hh, List.map_cons, List.nodup_cons]
    refine ⟨?_, hw.keys⟩
    intro hc
    obtain ⟨e, he, hek⟩ := List.mem_map.1 hc
    exact HTable.get_none hf e he hek
  · intro h hhi
    rw [hi] at hhi
    have := hw.inheritable h hhi
    rw [old h this]; exact this
  · intro h y hy
    rw [get] at hy
    split at hy
    · cases hy; exact hxn
    · exact Nat.lt_of_lt_of_le (hw.objects h y hy) hnext
  · intro h hho
    rw [get]
    split
    · simp
    · rename_i hne
      exact ho.present h (((hm h).1 hho).resolve_right hne)
  · intro h hho n hn
    rw [hm]
    rw [get, get] at hn
    by_cases hnk : n = k
    · exact .inr hnk
    rw [if_neg hnk] at hn
    by_cases hhk : h = k
    · rw [if_pos hhk] at hn
      rcases hx with hx | ⟨h0, hm0, hx⟩
      · have := hw.objects n x hn
        omega
      · exact .inl (ho.closed h0 hm0 n (hn.trans hx.symm))
    · rw [if_neg hhk] at hn
      exact .inl (ho.closed h (((hm h).1 hho).resolve_right hhk) n hn)
  · intro h hne _
    exact ⟨old h hne, by rw [hi]⟩
  · intro h hho
    rcases (hm h).1 hho with h1 | rfl
    · exact .inl h1
    · exact .inr hf
  · intro h a b
    rw [get] at b
    split at b
    · rename_i e; exact (hm h).2 (.inr e)
    · exact absurd a b
  · intro h y hy
    rw [get] at hy
    split at hy
    · cases hy
      rcases hx with hx | ⟨h0, hm0, hx⟩
      · exact .inr (by omega)
      · exact .inl ⟨h0, hx, .inr hm0⟩
    · exact .inl ⟨h, hy, .inl rfl⟩

/-- `SetHandleInformation`. -/
theorem WMoves.mark {w : WinWorld} {k : BitVec 64} {o : List (BitVec 64)} (hw : WinWf w) (ho : OwnOk w o) (hk : k ∈ o) :
    WMoves w o { w with inheritable := k :: w.inheritable } o := by
  refine ⟨⟨hw.keys, ?_, hw.objects, hw.servers, hw.single⟩, ⟨ho.nodup, ho.present, ho.closed⟩, ?_, fun _ h => .inl h,
    fun h a b => absurd a b, fun h x hx => .inl ⟨h, hx, .inl rfl⟩, Nat.le_refl _, Nat.le_refl _, fun _ _ _ => .rfl,
    fun i hi => .inl ⟨i, hi, rfl, rfl⟩⟩
  · intro h hh
    rcases List.mem_cons.1 hh with rfl | hh
    · exact ho.present _ hk
    · exact hw.inheritable h hh
  · intro h _ hh
    refine ⟨rfl, ?_⟩
    have hne : h ≠ k := by rintro rfl; exact hh hk
    simp [hne]

/-! ## What is known at each point of a call -/

/-- No other pipe has this name or creator. -/
def Sole (w : WinWorld) (i : PipeInstance) : Prop :=
  ∀ i' ∈ w.pw.pipes, i'.name = i.name ∨ i'.server = i.server → i' = i

/-- The pipe has been created, nobody is connected to it. -/
def OpenedIs (w : WinWorld) (name : Bytes) (mine : BitVec 64) : Prop :=
  ∃ i ∈ w.pw.pipes, w⟪mine⟫ = some i.server ∧ i.name = name ∧ i.client = none ∧ Sole w i

/-- These are the two ends of one pipe. -/
def JoinedIs (w : WinWorld) (e : WEnds) : Prop :=
  ∃ i ∈ w.pw.pipes, ∃ c, w⟪e.mine⟫ = some i.server ∧ i.client = some c ∧ w⟪e.theirs⟫ = some c ∧ i.server ≠ c ∧ Sole w i

def WPolicyFor (x : WCreation) (e : WEnds) (p : Policy) (left : List Nat) : Prop :=
  ∀ n, (n ∈ p.inherit ∨ n ∈ left) ↔ (Declared x.policy x.config n ∨ n = e.theirs.toNat)

/-- The channel is there, the policy and the configuration are ready. -/
structure WJobOk (w : WinWorld) (x : WCreation) (j : WJob) : Prop where
  joined : JoinedIs w j.ends
  marked : j.ends.theirs ∈ w.inheritable
  policy : WPolicyFor x j.ends j.policy []
  config : j.config = { x.config with envp := x.config.envp ++ [ipcHandleVar j.ends.theirs.toNat] }

/-- The lists of handles among these attributes are those of the policy. -/
def ListsFor (j : WJob) (attributes : List ProcAttr) : Prop :=
  ∀ l, .handleList l ∈ attributes → ∀ h, h ∈ l ↔ h ∈ j.policy.inheritedHandles.map (BitVec.ofNat 64)

/-- The process has been created; `theirs` is the value of its end of the pipe the broker's handle `mine` is the other end of;
in the broker this end has no handles but those of `left`. -/
def ChildIs (w : WinWorld) (x : WCreation) (mine theirs : BitVec 64) (ch : WinChild) (left : List (BitVec 64)) : Prop :=
  x.child = some ch ∧ ch.environment = envBlock (mergeEnv x.os.sys (x.config.envp ++ [ipcHandleVar theirs.toNat])) ∧
  w⟪x.os.hProcess⟫ = some ch.object ∧
  ∃ i ∈ w.pw.pipes, ∃ c, w⟪mine⟫ = some i.server ∧ i.client = some c ∧ ch.handles.get theirs = some c ∧ i.server ≠ c ∧
    ch.object ≠ i.server ∧ ch.object ≠ c ∧ c < w.pw.next ∧ Sole w i ∧ ∀ h, w⟪h⟫ = some c → h ∈ left

def WPhaseOk (w : WinWorld) (x : WCreation) : Prop :=
  match x.phase with
  | .naming _ _ => True
  | .opening _ name mine => OpenedIs w name mine
  | .connecting _ e | .moding _ e | .marking e => JoinedIs w e
  | .checking e p left => JoinedIs w e ∧ e.theirs ∈ w.inheritable ∧ WPolicyFor x e p left
  | .locating j | .listing j _ _ | .numbering j _ _ | .profiling j _ _ _ | .deleting j _ _ _ | .recreating j _ _ _ =>
    WJobOk w x j
  | .creating j _ _ attributes _ => WJobOk w x j ∧ ListsFor j attributes
  | .identifying e _ _ | .attaching e _ => JoinedIs w e ∧ ∃ ch, ChildIs w x e.mine e.theirs ch [e.theirs]
  | .handing e _ remote => JoinedIs w e ∧ ∃ ch, ChildIs w x e.mine e.theirs ch [e.theirs] ∧ w⟪remote⟫ = some ch.object
  | .spawning mine _ remote => ∃ theirs ch, ChildIs w x mine theirs ch [] ∧ w⟪remote⟫ = some ch.object
  | .failing _ _ | .failed _ | .panicked | .served _ _ _ => True

/-- What belongs to the call, or to the thread and the `Worker` it has created. -/
def WCreation.holding (x : WCreation) : List (BitVec 64) :=
  match x.phase with
  | .served _ mine remote => [mine, remote, x.os.hProcess]
  | _ => x.owned

theorem owned_sub_holds (x : WCreation) : ∀ h ∈ x.owned, h ∈ x.holding := by
  obtain ⟨c, p, os, ph, chd⟩ := x
  cases ph <;> first | exact fun _ h => h | (intro _ h; cases h)

theorem holds_of_not_over {x : WCreation} (h : x.phase.over = false) : x.holding = x.owned := by
  obtain ⟨c, p, os, ph, chd⟩ := x
  cases ph <;> first | rfl | cases h

theorem owned_of_holds {w : WinWorld} {x : WCreation} (h : OwnOk w x.holding) : OwnOk w x.owned := by
  obtain ⟨c, p, os, ph, chd⟩ := x
  cases ph <;> first | exact h | exact ⟨List.nodup_nil, by simp [WCreation.owned], by simp [Closed, WCreation.owned]⟩

/-! ## What others do does not matter -/

/-- What a call knows is still true: its handles are the same, and so are the pipes they are ends of. -/
structure Undisturbed (w w' : WinWorld) (o : List (BitVec 64)) : Prop where
  same : ∀ h ∈ o, SameHandle w w' h
  pipes : ∀ h ∈ o, ∀ i ∈ w.pw.pipes, w⟪h⟫ = some i.server → Sole w i →
    ∀ i', i'.name = i.name ∨ i'.server = i.server → (i' ∈ w'.pw.pipes ↔ i' ∈ w.pw.pipes)
  clients : ∀ h ∈ o, ∀ i ∈ w.pw.pipes, w⟪h⟫ = some i.server → ∀ y, i.client = some y → y < w.pw.next →
    (∀ k, w⟪k⟫ = some y → k ∈ o) → ∀ k, w'⟪k⟫ = some y → w⟪k⟫ = some y
  next : w.pw.next ≤ w'.pw.next

theorem WinOther.undisturbed {mine borrowed : BitVec 64 → Prop} {w w' : WinWorld} (h : WinOther mine borrowed w w')
    {o : List (BitVec 64)} (ho : ∀ h ∈ o, mine h) : Undisturbed w w' o :=
  ⟨fun k hk => h.kept k (.inl (ho k hk)), fun k hk i hi hs hsole => h.pipes k (ho k hk) i hi hs hsole,
   fun k hk i hi hs y hy _ _ => h.clients k (ho k hk) i hi hs y hy, h.next⟩

/-- Another call's system call. -/
theorem WMoves.undisturbed {w w' : WinWorld} {o o' q : List (BitVec 64)} (hm : WMoves w o w' o') (hw : WinWf w)
    (hq : OwnOk w q) (hd : ∀ h ∈ q, h ∉ o) : Undisturbed w w' q := by
  have mine : ∀ h ∈ q, ∀ k ∈ o, w⟪k⟫ ≠ w⟪h⟫ := fun h hh k hk he => hd k (hq.closed h hh k he) hk
  refine ⟨fun h hh => hm.keep h (hq.present h hh) (hd h hh), ?_, ?_, hm.next⟩
  · intro h hh i hi hs hsole i' hi'
    have byServer : ∀ i', i'.server = i.server → (i' ∈ w'.pw.pipes ↔ i' ∈ w.pw.pipes) := by
      intro i' he
      refine hm.pipes i' (by rw [he]; exact hw.servers i hi) fun k hk => ?_
      rw [he, ← hs]
      exact mine h hh k hk
    rcases hi' with he | he
    · constructor
      · intro hin
        rcases hm.names i' hin with ⟨i0, h0, h1, h2⟩ | h0
        · have := hsole i0 h0 (.inl (h1.trans he))
          subst this
          exact (byServer i' h2.symm).1 hin
        · exact absurd he.symm (h0 i hi)
      · intro hin
        have := hsole i' hin (.inl he)
        subst this
        exact (byServer _ rfl).2 hin
    · exact byServer i' he
  · intro h hh i hi hs y hy hlt hall k hk
    rcases hm.objs k y hk with ⟨k0, h0, rfl | h1⟩ | h0
    · exact h0
    · exact absurd h1 (hd k0 (hall k0 h0))
    · omega

theorem Sole.congr {w w' : WinWorld} {i : PipeInstance} (h : Sole w i)
    (hp : ∀ i', i'.name = i.name ∨ i'.server = i.server → (i' ∈ w'.pw.pipes ↔ i' ∈ w.pw.pipes)) : Sole w' i :=
  fun i' hi' he => h i' ((hp i' he).1 hi') he

theorem OpenedIs.congr {w w' : WinWorld} {o : List (BitVec 64)} {name : Bytes} {mine : BitVec 64} (h : OpenedIs w name mine)
    (hu : Undisturbed w w' o) (hm : mine ∈ o) : OpenedIs w' name mine := by
  obtain ⟨i, hi, h1, h2, h3, h4⟩ := h
  have hp := hu.pipes mine hm i hi h1 h4
  exact ⟨i, (hp i (.inl rfl)).2 hi, (hu.same mine hm).1.trans h1, h2, h3, h4.congr hp⟩

theorem JoinedIs.congr {w w' : WinWorld} {o : List (BitVec 64)} {e : WEnds} (h : JoinedIs w e) (hu : Undisturbed w w' o)
    (hm : e.mine ∈ o) (ht : e.theirs ∈ o) : JoinedIs w' e := by
  obtain ⟨i, hi, c, h1, h2, h3, h4, h5⟩ := h
  have hp := hu.pipes e.mine hm i hi h1 h5
  exact ⟨i, (hp i (.inl rfl)).2 hi, c, (hu.same _ hm).1.trans h1, h2, (hu.same _ ht).1.trans h3, h4, h5.congr hp⟩

theorem WJobOk.congr {w w' : WinWorld} {x : WCreation} {j : WJob} {o : List (BitVec 64)} (h : WJobOk w x j)
    (hu : Undisturbed w w' o) (hm : j.ends.mine ∈ o) (ht : j.ends.theirs ∈ o) : WJobOk w' x j :=
  ⟨h.joined.congr hu hm ht, (hu.same _ ht).2.2 h.marked, h.policy, h.config⟩

theorem ChildIs.congr {w w' : WinWorld} {x : WCreation} {mine theirs : BitVec 64} {ch : WinChild} {left o : List (BitVec 64)}
    (h : ChildIs w x mine theirs ch left) (hu : Undisturbed w w' o) (hm : mine ∈ o) (hp : x.os.hProcess ∈ o)
    (hl : ∀ h ∈ left, h ∈ o) : ChildIs w' x mine theirs ch left := by
  obtain ⟨h1, h2, h3, i, hi, c, g1, g2, g3, g4, g5, g6, g7, g8, g9⟩ := h
  have hpp := hu.pipes mine hm i hi g1 g8
  refine ⟨h1, h2, (hu.same _ hp).1.trans h3, i, (hpp i (.inl rfl)).2 hi, c, (hu.same _ hm).1.trans g1, g2, g3, g4, g5, g6,
    Nat.lt_of_lt_of_le g7 hu.next, g8.congr hpp, ?_⟩
  intro k hk
  exact g9 k (hu.clients mine hm i hi g1 c g2 g7 (fun k hk => hl k (g9 k hk)) k hk)

/-- What is known depends only on the call's own handles and their pipes. -/
theorem WPhaseOk.congr {w w' : WinWorld} {x : WCreation} (h : WPhaseOk w x) (hu : Undisturbed w w' x.owned) :
    WPhaseOk w' x := by
  obtain ⟨c, p, os, ph, chd⟩ := x
  cases ph <;> simp only [WPhaseOk, WCreation.owned] at h hu ⊢
  case opening k name mine => exact h.congr hu (by simp)
  case connecting k e => exact h.congr hu (by simp) (by simp)
  case moding k e => exact h.congr hu (by simp) (by simp)
  case marking e => exact h.congr hu (by simp) (by simp)
  case checking e p l => exact ⟨h.1.congr hu (by simp) (by simp), (hu.same _ (by simp)).2.2 h.2.1, h.2.2⟩
  case locating j => exact h.congr hu (by simp) (by simp)
  case listing j k f => exact h.congr hu (by simp) (by simp)
  case numbering j k f => exact h.congr hu (by simp) (by simp)
  case profiling j k f id => exact h.congr hu (by simp) (by simp)
  case deleting j k f id => exact h.congr hu (by simp) (by simp)
  case recreating j k f id => exact h.congr hu (by simp) (by simp)
  case creating j k f a p => exact ⟨h.1.congr hu (by simp) (by simp), h.2⟩
  case identifying e k p =>
    obtain ⟨h1, ch, h2⟩ := h
    exact ⟨h1.congr hu (by simp) (by simp), ch, h2.congr hu (by simp) (by simp) (by simp)⟩
  case attaching e q =>
    obtain ⟨h1, ch, h2⟩ := h
    exact ⟨h1.congr hu (by simp) (by simp), ch, h2.congr hu (by simp) (by simp) (by simp)⟩
  case handing e q r =>
    obtain ⟨h1, ch, h2, h3⟩ := h
    exact ⟨h1.congr hu (by simp) (by simp), ch, h2.congr hu (by simp) (by simp) (by simp),
      (hu.same _ (by simp)).1.trans h3⟩
  case spawning m q r =>
    obtain ⟨th, ch, h2, h3⟩ := h
    exact ⟨th, ch, h2.congr hu (by simp) (by simp) (by simp), (hu.same _ (by simp)).1.trans h3⟩

/-! ## Each system call -/

/-- The call is failing, or has failed. -/
def WPhase.gaveUp : WPhase → Bool
  | .failing _ _ | .failed _ => true
  | _ => false

theorem fail_gaveUp (err : Option BrokerError) (l : List WLeft) : (WPhase.fail err l).gaveUp = true := by
  cases l <;> rfl

/-- What a system call of a call does. -/
structure WGoOk (w : WinWorld) (x : WCreation) (w' : WinWorld) (x' : WCreation) : Prop where
  moves : WMoves w x.owned w' x'.holding
  drops : (∀ k, (x.os.rounds k).pid ≠ 0) ∨ x'.phase.gaveUp = false → ∀ h ∈ x.owned, w'⟪h⟫ ≠ none → h ∈ x'.holding
  ok : WPhaseOk w' x'
  config : x'.config = x.config
  policy : x'.policy = x.policy
  os : x'.os = x.os

theorem fail_holds (x : WCreation) (err : Option BrokerError) (l : List WLeft) :
    (x.at (.fail err l)).holding = leftHandles l := by
  cases l <;> rfl

theorem fail_wphaseOk (w : WinWorld) (x : WCreation) (err : Option BrokerError) (l : List WLeft) :
    WPhaseOk w (x.at (.fail err l)) := by
  cases l <;> trivial

/-- The state that matters stays the same. -/
theorem WGoOk.stay {w w' : WinWorld} {x x' : WCreation} (hw : WinWf w) (ho : OwnOk w x.owned) (h1 : w'.pw = w.pw)
    (h2 : w'.inheritable = w.inheritable) (h3 : w.start.nextId ≤ w'.start.nextId) (hh : x'.holding = x.owned)
    (hok : WPhaseOk w' x') (hc : x'.config = x.config) (hp : x'.policy = x.policy) (hos : x'.os = x.os) :
    WGoOk w x w' x' := by
  refine ⟨?_, fun _ h hm _ => by rw [hh]; exact hm, hok, hc, hp, hos⟩
  rw [hh]
  exact .stay hw h1 h2 h3 ho

theorem WGoOk.at {w : WinWorld} {x : WCreation} {ph : WPhase} (hw : WinWf w) (ho : OwnOk w x.owned)
    (hh : (x.at ph).holding = x.owned) (hok : WPhaseOk w (x.at ph)) : WGoOk w x w (x.at ph) :=
  .stay hw ho rfl rfl (Nat.le_refl _) hh hok rfl rfl rfl

theorem WGoOk.failEnds {w w' : WinWorld} {x : WCreation} {e : WEnds} (err : Option BrokerError) (hw : WinWf w)
    (ho : OwnOk w x.owned) (h1 : w'.pw = w.pw) (h2 : w'.inheritable = w.inheritable)
    (h3 : w.start.nextId ≤ w'.start.nextId) (he : x.owned = [e.theirs, e.mine]) : WGoOk w x w' (x.at (.failEnds err e)) :=
  .stay hw ho h1 h2 h3 (by rw [he]; rfl) (fail_wphaseOk _ _ _ _) rfl rfl rfl

theorem pipe_inj {l : List PipeInstance} (h : (l.map (·.server)).Nodup) {a b : PipeInstance} (ha : a ∈ l) (hb : b ∈ l)
    (he : a.server = b.server) : a = b := by
  induction l with
  | nil => cases ha
  | cons c l ih =>
    rw [List.map_cons, List.nodup_cons] at h
    rcases List.mem_cons.1 ha with h1 | h1 <;> rcases List.mem_cons.1 hb with h2 | h2
    · rw [h1, h2]
    · exact absurd (List.mem_map.2 ⟨b, h2, by rw [← he, h1]⟩) h.1
    · exact absurd (List.mem_map.2 ⟨a, h1, by rw [he, h2]⟩) h.1
    · exact ih h.2 h1 h2

theorem go_naming {w : WinWorld} {c : ProcessConfig} {p : Policy} {os : LaunchOs} {chd : Option WinChild} {k : Nat}
    {id : BitVec 32} (hw : WinWf w) :
    WGoOk w ⟨c, p, os, .naming k id, chd⟩ (WCreation.go w ⟨c, p, os, .naming k id, chd⟩).1
      (WCreation.go w ⟨c, p, os, .naming k id, chd⟩).2 := by
  have none_own : OwnOk w [] := ⟨List.nodup_nil, by simp, by simp [Closed]⟩
  simp only [WCreation.go]
  cases hn : pipeName os.pid (id + 1) with
  | none => exact .at hw none_own rfl trivial
  | some name =>
    simp only [createNamedPipe]
    by_cases ha : w.pw.pipes.any (fun i => decide (i.name = name)) = true
    · simp only [if_pos ha]
      exact .at (ph := .naming (k + 1) (id + 1)) hw none_own rfl trivial
    · simp only [if_neg ha]
      have hfree : ∀ i ∈ w.pw.pipes, i.name ≠ name := by
        intro i hi he
        exact ha (List.any_eq_true.2 ⟨i, hi, by simpa using he⟩)
      cases (os.pipes k).create with
      | error e =>
        simp only
        by_cases h5 : e = 5
        · simp only [if_pos h5]; exact .at hw none_own rfl trivial
        · simp only [if_neg h5]; exact .at hw none_own rfl trivial
      | ok h =>
        simp only
        by_cases hf : w.pw.handles.free h = true
        · simp only [if_pos hf]
          have hnone := ((HTable.free_iff _ _).1 hf).2
          have key : ∀ i' ∈ w.pw.pipes ++ [⟨name, w.pw.next, none⟩], i' ∈ w.pw.pipes ∨ i' = ⟨name, w.pw.next, none⟩ := by
            intro i' hi'; simpa using hi'
          refine ⟨?_, ?_, ?_, rfl, rfl, rfl⟩
          · refine WMoves.add hw none_own hnone rfl rfl (.inl rfl) (Nat.lt_succ_self _) (Nat.le_succ _) (Nat.le_refl _)
              (o' := [h]) (by simp) (by simp [WCreation.owned]) ?_ ?_ ?_ ?_
            · intro i' hi'
              rcases key i' hi' with h1 | rfl
              · exact Nat.lt_succ_of_lt (hw.servers i' h1)
              · exact Nat.lt_succ_self _
            · show ((w.pw.pipes ++ [_]).map _).Nodup
              rw [List.map_append, List.nodup_append]
              refine ⟨hw.single, by simp, ?_⟩
              intro a ha b hb
              obtain ⟨i, hi, rfl⟩ := List.mem_map.1 ha
              simp only [List.map_cons, List.map_nil, List.mem_singleton] at hb
              have := hw.servers i hi
              omega
            · intro i' hlt _
              show i' ∈ w.pw.pipes ++ [_] ↔ _
              constructor
              · intro hi'
                rcases key i' hi' with h1 | rfl
                · exact h1
                · exact absurd hlt (Nat.lt_irrefl _)
              · intro hi'; exact List.mem_append_left _ hi'
            · intro i' hi'
              rcases key i' hi' with h1 | rfl
              · exact .inl ⟨i', h1, rfl, rfl⟩
              · exact .inr hfree
          · intro _ h hm; cases hm
          · show OpenedIs _ name h
            refine ⟨⟨name, w.pw.next, none⟩, List.mem_append_right _ (by simp), HTable.get_cons _ _ _, rfl, rfl, ?_⟩
            intro i' hi' he
            rcases key i' hi' with h1 | rfl
            · rcases he with he | he
              · exact absurd he (hfree i' h1)
              · have h2 := hw.servers i' h1
                exact absurd (show i'.server = w.pw.next from he) (by omega)
            · rfl
        · simp only [if_neg hf]
          exact .at (ph := .failed none) hw none_own rfl trivial

theorem go_opening {w : WinWorld} {c : ProcessConfig} {p : Policy} {os : LaunchOs} {chd : Option WinChild} {k : Nat}
    {name : Bytes} {m : BitVec 64} (hw : WinWf w) (ho : OwnOk w [m]) (hok : OpenedIs w name m) :
    WGoOk w ⟨c, p, os, .opening k name m, chd⟩ (WCreation.go w ⟨c, p, os, .opening k name m, chd⟩).1
      (WCreation.go w ⟨c, p, os, .opening k name m, chd⟩).2 := by
  have hfail : WGoOk w ⟨c, p, os, .opening k name m, chd⟩ w
      (WCreation.at ⟨c, p, os, .opening k name m, chd⟩ (.fail none [.handle m])) :=
    .at hw ho rfl (fail_wphaseOk _ _ _ _)
  simp only [WCreation.go, openPipe]
  cases (os.pipes k).open_ with
  | error e => exact hfail
  | ok r =>
    obtain ⟨h, s⟩ := r
    simp only
    by_cases ha : w.pw.pipes.any (fun i => decide (i.name = name) && decide (i.server = s) && i.client.isNone) = true
    · simp only [if_pos ha]
      by_cases hf : w.pw.handles.free h = true
      · simp only [if_pos hf]
        have hnone := ((HTable.free_iff _ _).1 hf).2
        obtain ⟨i, hi, h1, rfl, h3, h4⟩ := hok
        obtain ⟨i0, hi0, hc0⟩ := List.any_eq_true.1 ha
        simp only [Bool.and_eq_true, decide_eq_true_eq, Option.isNone_iff_eq_none] at hc0
        obtain ⟨⟨hn0, hs0⟩, -⟩ := hc0
        have := h4 i0 hi0 (.inl hn0)
        subst this
        subst hs0
        generalize hq : (fun i : PipeInstance => decide (i.name = i0.name) && decide (i.server = i0.server)) = q
        have hqi : q i0 = true := by rw [← hq]; simp
        have hqs : ∀ j, q j = true → j.server = i0.server := by
          intro j hj; rw [← hq] at hj; simp only [Bool.and_eq_true, decide_eq_true_eq] at hj; exact hj.2
        have hmne : m ≠ h := by rintro rfl; rw [h1] at hnone; cases hnone
        have hsv := connectTo_servers q w.pw.next w.pw.pipes
        have hchosen : { i0 with client := some w.pw.next } ∈ connectTo q w.pw.next w.pw.pipes :=
          connectTo_chosen hi0 hqi h3 fun j hj hp => h4 j hj (.inr (hqs j hp))
        have hsingle : ((connectTo q w.pw.next w.pw.pipes).map (·.server)).Nodup := by rw [hsv]; exact hw.single
        refine ⟨?_, ?_, ?_, rfl, rfl, rfl⟩
        · refine WMoves.add hw ho hnone rfl rfl (.inl rfl) (Nat.lt_succ_self _) (Nat.le_succ _) (Nat.le_refl _)
            (o' := [h, m]) (by simp [Ne.symm hmne]) (by simp [WCreation.owned, or_comm]) ?_ hsingle ?_ ?_
          · intro i' hi'
            have : i'.server ∈ w.pw.pipes.map (·.server) := by
              rw [← hsv]; exact List.mem_map.2 ⟨i', hi', rfl⟩
            obtain ⟨j, hj, he⟩ := List.mem_map.1 this
            rw [← he]
            exact Nat.lt_succ_of_lt (hw.servers j hj)
          · intro i' _ hne
            have hne := hne m (by simp [WCreation.owned])
            constructor
            · intro hi'
              rcases connectTo_mem hi' with h5 | ⟨j, _, hp, _, rfl⟩
              · exact h5
              · exact absurd (h1.trans (congrArg some (hqs j hp).symm)) hne
            · intro hi'
              refine mem_connectTo ?_ hi'
              cases hqi' : q i' with
              | false => rfl
              | true => exact absurd (h1.trans (congrArg some (hqs i' hqi').symm)) hne
          · intro i' hi'
            rcases connectTo_mem hi' with h5 | ⟨j, hj, _, _, rfl⟩
            · exact .inl ⟨i', h5, rfl, rfl⟩
            · exact .inl ⟨j, hj, rfl, rfl⟩
        · intro _ k hk _
          rw [List.mem_singleton.1 hk]
          exact List.mem_cons_of_mem _ (List.mem_singleton.2 rfl)
        · show JoinedIs _ ⟨m, h⟩
          refine ⟨{ i0 with client := some w.pw.next }, hchosen, w.pw.next, ?_, rfl, HTable.get_cons _ _ _, ?_, ?_⟩
          · show HTable.get ((h, _) :: _) m = _
            rw [HTable.get_cons_ne _ _ (Ne.symm hmne)]; exact h1
          · exact Nat.ne_of_lt (hw.servers i0 hi0)
          · intro i' hi' he
            have hsame : i'.server = i0.server := by
              rcases he with he | he
              · rcases connectTo_mem hi' with h5 | ⟨j, hj, hp, _, rfl⟩
                · rw [h4 i' h5 (.inl he)]
                · exact hqs j hp
              · exact he
            exact pipe_inj hsingle hi' hchosen hsame
      · simp only [if_neg hf]
        exact hfail
    · simp only [if_neg ha]
      exact hfail

theorem filter_get {t : HTable} {f : BitVec 64 × Nat → Bool} {g : BitVec 64 → Bool} (hf : ∀ e, f e = g e.1) (h : BitVec 64) :
    HTable.get (List.filter f t) h = if g h then HTable.get t h else none := by
  induction t with
  | nil => cases g h <;> rfl
  | cons e t ih =>
    obtain ⟨k, o⟩ := e
    rw [List.filter_cons, HTable.get_cons_if]
    by_cases hk : h = k
    · subst hk
      rw [if_pos rfl, hf]
      cases hg : g h with
      | true => simp only [if_true]; exact HTable.get_cons _ _ _
      | false => rw [hg] at ih; simpa using ih
    · rw [if_neg hk, ← ih]
      split
      · rw [HTable.get_cons_if, if_neg hk]
      · rfl

/-- The handles of a new process, one by one. -/
theorem childHandles_get (w : WinWorld) (attributes : List ProcAttr) (h : BitVec 64) (o : Nat) :
    (childHandles w attributes).get h = some o ↔
      h ∈ w.inheritable ∧ (∀ l, .handleList l ∈ attributes → h ∈ l) ∧ w⟪h⟫ = some o := by
  have e : (childHandles w attributes).get h = if (w.inheritable.contains h && attributes.all fun
      | .handleList l => l.contains h
      | _ => true) then w⟪h⟫ else none :=
    filter_get (t := w.pw.handles) (g := fun k => w.inheritable.contains k && attributes.all fun
      | .handleList l => l.contains k
      | _ => true) (fun _ => rfl) h
  rw [e]
  have hall : (attributes.all fun
      | .handleList l => l.contains h
      | _ => true) = true ↔ ∀ l, .handleList l ∈ attributes → h ∈ l := by
    rw [List.all_eq_true]
    constructor
    · intro ha l hl
      exact List.contains_iff_mem.1 (ha _ hl)
    · intro ha a hm
      cases a with
      | handleList l => exact List.contains_iff_mem.2 (ha l hm)
      | _ => rfl
  constructor
  · intro hg
    split at hg
    · rename_i hb
      rw [Bool.and_eq_true, List.contains_iff_mem, hall] at hb
      exact ⟨hb.1, hb.2, hg⟩
    · cases hg
  · rintro ⟨h1, h2, h3⟩
    rw [if_pos]
    · exact h3
    · rw [Bool.and_eq_true, List.contains_iff_mem, hall]
      exact ⟨h1, h2⟩

theorem leftHandles_drops (os : LaunchOs) (q : WinProcess) (l : List WLeft) :
    leftHandles (dropsOf os q ++ l) = os.hProcess :: leftHandles l := by
  obtain ⟨pid, profile⟩ := q
  unfold dropsOf
  cases os.supported <;> cases profile <;> rfl

theorem WPolicyFor.theirs {x : WCreation} {e : WEnds} {p : Policy} (h : WPolicyFor x e p []) :
    e.theirs ∈ p.inheritedHandles.map (BitVec.ofNat 64) := by
  have := (h e.theirs.toNat).2 (.inr rfl)
  simp only [List.not_mem_nil, or_false] at this
  exact List.mem_map.2 ⟨_, this, by simp⟩

theorem JoinedIs.add {w w' : WinWorld} {e : WEnds} {k : BitVec 64} {y : Nat} (h : JoinedIs w e) (hf : w⟪k⟫ = none)
    (hh : w'.pw.handles = (k, y) :: w.pw.handles) (hp : w'.pw.pipes = w.pw.pipes) : JoinedIs w' e := by
  obtain ⟨i, hi, c, h1, h2, h3, h4, h5⟩ := h
  have old : ∀ h, w⟪h⟫ ≠ none → w'⟪h⟫ = w⟪h⟫ := by
    intro h hne
    rw [hh, HTable.get_cons_if, if_neg]
    rintro rfl
    exact hne hf
  refine ⟨i, by rw [hp]; exact hi, c, ?_, h2, ?_, h4, ?_⟩
  · rw [old _ (by rw [h1]; simp)]; exact h1
  · rw [old _ (by rw [h3]; simp)]; exact h3
  · unfold Sole; rw [hp]; exact h5

theorem ListsFor.nil (j : WJob) : ListsFor j [] := by intro l h; cases h

/-- From the list of handles on. -/
theorem afterCaps_ok {w : WinWorld} {x : WCreation} {j : WJob} (k : Nat) (f : WinFlags) (r : WinRound)
    {attributes : List ProcAttr} (profile : Option Nat) (h : WJobOk w x j) (ha : ListsFor j attributes) :
    WPhaseOk w (x.at (winAfterCaps j k f r attributes profile)) ∧
    (x.at (winAfterCaps j k f r attributes profile)).holding = [j.ends.theirs, j.ends.mine] := by
  have cong : ∀ ph, WJobOk w (x.at ph) j := fun ph => ⟨h.joined, h.marked, h.policy, h.config⟩
  have one : ∀ (b : Bool) (a : ProcAttr) (l l' : List ProcAttr), ListsFor j l →
      (∀ hl, a = .handleList hl → ∀ h, h ∈ hl ↔ h ∈ j.policy.inheritedHandles.map (BitVec.ofNat 64)) →
      trySet b r a l = some l' → ListsFor j l' := by
    intro b a l l' hl hh ht
    unfold trySet at ht
    split at ht
    · split at ht
      · cases ht
        intro hl' hm
        rcases List.mem_append.1 hm with hm | hm
        · exact hl hl' hm
        · rw [List.mem_singleton] at hm
          exact hh hl' hm.symm
      · cases ht
    · cases ht; exact hl
  unfold winAfterCaps
  cases h1 : trySet f.filterHandles r (.handleList (handlesToInherit (j.policy.inheritedHandles.map (BitVec.ofNat 64))))
      attributes with
  | none => exact ⟨cong _, rfl⟩
  | some a1 =>
    have l1 := one _ _ _ _ ha (by
      intro hl he h
      injection he with he
      rw [← he]
      exact (exact_handles _).2 h) h1
    simp only
    cases h2 : trySet f.blockChildren r (.childProcessPolicy 1) a1 with
    | none => exact ⟨cong _, rfl⟩
    | some a2 =>
      have l2 := one _ _ _ _ l1 (by intro hl he; cases he) h2
      simp only
      cases h3 : trySet f.mitigations r (.mitigationPolicy mitigationValue) a2 with
      | none => exact ⟨cong _, rfl⟩
      | some a3 => exact ⟨⟨cong _, one _ _ _ _ l2 (by intro hl he; cases he) h3⟩, rfl⟩

theorem afterProfile_ok {w : WinWorld} {x : WCreation} {j : WJob} (k : Nat) (f : WinFlags) (r : WinRound) (id : Nat)
    (h : WJobOk w x j) :
    WPhaseOk w (x.at (winAfterProfile j k f r id)) ∧
    (x.at (winAfterProfile j k f r id)).holding = [j.ends.theirs, j.ends.mine] := by
  have cong : ∀ ph, WJobOk w (x.at ph) j := fun ph => ⟨h.joined, h.marked, h.policy, h.config⟩
  unfold winAfterProfile
  cases h1 : trySet true r (.securityCapabilities id) [] with
  | none => exact ⟨cong _, rfl⟩
  | some a1 =>
    have l1 : ListsFor j a1 := by
      unfold trySet at h1
      split at h1
      · split at h1
        · cases h1; intro l hl; simp at hl
        · cases h1
      · cases h1; exact .nil j
    simp only
    cases h2 : trySet f.lessPrivileged r (.allApplicationPackagesPolicy 1) a1 with
    | none => exact ⟨cong _, rfl⟩
    | some a2 =>
      have l2 : ListsFor j a2 := by
        unfold trySet at h2
        split at h2
        · split at h2
          · cases h2
            intro l hl
            rcases List.mem_append.1 hl with hl | hl
            · exact l1 l hl
            · simp at hl
          · cases h2
        · cases h2; exact l1
      exact afterCaps_ok k f r (some id) h l2

/-- One system call of any call. -/
theorem wgo_ok {w : WinWorld} {x : WCreation} (hx : x.phase.over = false) (hw : WinWf w) (ho : OwnOk w x.owned)
    (hok : WPhaseOk w x) : WGoOk w x (x.go w).1 (x.go w).2 := by
  obtain ⟨c, p, os, ph, chd⟩ := x
  cases ph with
  | naming k id => exact go_naming hw
  | opening k name m => exact go_opening hw ho hok
  | connecting k e =>
    simp only [WCreation.go]
    split
    · exact .at hw ho rfl hok
    · split
      · exact .failEnds none hw ho rfl rfl (Nat.le_refl _) rfl
      · exact .stay hw ho rfl rfl (Nat.le_refl _) rfl hok rfl rfl rfl
  | moding k e =>
    simp only [WCreation.go]
    split
    · exact .failEnds none hw ho rfl rfl (Nat.le_refl _) rfl
    · exact .at hw ho rfl hok
  | marking e =>
    simp only [WCreation.go]
    split
    · refine ⟨?_, fun _ h hm _ => hm, ⟨hok, List.mem_cons_self, ?_⟩, rfl, rfl, rfl⟩
      · exact .mark hw ho (by simp [WCreation.owned])
      · intro n
        have := mem_streams (c := c) (fd := n)
        unfold streams at this
        show (n ∈ p.inherit ∨ n ∈ e.theirs.toNat :: [c.stdin, c.stdout, c.stderr].filterMap id) ↔
          (Declared p c n ∨ n = e.theirs.toNat)
        rw [List.mem_cons, this]
        simp only [Declared, Policy.inheritedHandles]
        grind
    · exact .failEnds none hw ho rfl rfl (Nat.le_refl _) rfl
  | checking e p1 left =>
    obtain ⟨h1, h2, h3⟩ := hok
    cases left with
    | nil =>
      simp only [WCreation.go, winAfterChecks]
      split
      · exact .failEnds _ hw ho rfl rfl (Nat.le_refl _) rfl
      · rename_i c' hc'
        split
        · exact .failEnds _ hw ho rfl rfl (Nat.le_refl _) rfl
        · exact .at hw ho rfl ⟨h1, h2, h3, (setEnv_ok hc').2⟩
    | cons raw left =>
      simp only [WCreation.go]
      split
      · exact .failEnds _ hw ho rfl rfl (Nat.le_refl _) rfl
      · rename_i p2 hp2
        refine .at hw ho rfl ⟨h1, h2, ?_⟩
        intro n
        have := h3 n
        rw [(winAllow_ok hp2).1]
        simp only [List.mem_cons] at this
        simp only [mem_setInsert]
        show _ ↔ (Declared p c n ∨ _)
        change _ ↔ (Declared p c n ∨ _) at this
        rw [← this]
        grind
  | locating j =>
    simp only [WCreation.go]
    split
    · exact .at hw ho rfl ⟨hok.joined, hok.marked, hok.policy, hok.config⟩
    · exact .failEnds none hw ho rfl rfl (Nat.le_refl _) rfl
  | listing j k f =>
    simp only [WCreation.go]
    split
    · split
      · split
        · exact .at hw ho rfl ⟨hok.joined, hok.marked, hok.policy, hok.config⟩
        · exact .at hw ho rfl ⟨hok.joined, hok.marked, hok.policy, hok.config⟩
      · have := afterCaps_ok k f.head (os.rounds k) none hok (.nil j)
        exact .at hw ho this.2 this.1
    · exact .failEnds none hw ho rfl rfl (Nat.le_refl _) rfl
  | numbering j k f =>
    exact .stay hw ho rfl rfl (Nat.le_succ _) rfl ⟨hok.joined, hok.marked, hok.policy, hok.config⟩ rfl rfl rfl
  | profiling j k f id =>
    simp only [WCreation.go]
    split
    · exact .at hw ho rfl ⟨hok.joined, hok.marked, hok.policy, hok.config⟩
    · split
      · have := afterProfile_ok (w := w.addProfile id) k f (os.rounds k) id (x := ⟨c, p, os, .profiling j k f id, chd⟩)
          ⟨hok.joined, hok.marked, hok.policy, hok.config⟩
        exact .stay hw ho rfl rfl (Nat.le_refl _) this.2 this.1 rfl rfl rfl
      · exact .at hw ho rfl ⟨hok.joined, hok.marked, hok.policy, hok.config⟩
  | deleting j k f id =>
    exact .stay hw ho rfl rfl (Nat.le_refl _) rfl ⟨hok.joined, hok.marked, hok.policy, hok.config⟩ rfl rfl rfl
  | recreating j k f id =>
    simp only [WCreation.go]
    split
    · have := afterProfile_ok (w := w.addProfile id) k f (os.rounds k) id (x := ⟨c, p, os, .recreating j k f id, chd⟩)
        ⟨hok.joined, hok.marked, hok.policy, hok.config⟩
      exact .stay hw ho rfl rfl (Nat.le_refl _) this.2 this.1 rfl rfl rfl
    · exact .at hw ho rfl ⟨hok.joined, hok.marked, hok.policy, hok.config⟩
  | creating j k f a prof =>
    obtain ⟨hj, hl⟩ := hok
    simp only [WCreation.go]
    split
    · rename_i hc
      rw [Bool.and_eq_true, HTable.free_iff] at hc
      have hnone := hc.2.2
      have hjo := hj.joined
      obtain ⟨i, hi, y, g1, g2, g3, g4, g5⟩ := hj.joined
      have ht : os.hProcess ≠ j.ends.theirs := by rintro he; rw [he, g3] at hnone; cases hnone
      have hm : os.hProcess ≠ j.ends.mine := by rintro he; rw [he, g1] at hnone; cases hnone
      have hnd := ho.nodup
      simp only [WCreation.owned, List.nodup_cons, List.mem_cons, List.not_mem_nil, or_false, not_false_eq_true,
        List.nodup_nil, and_true] at hnd
      have hadd : JoinedIs ((w.record f a true).addChild os.hProcess (w.newChild os j a)) j.ends :=
        hjo.add hnone rfl rfl
      refine ⟨?_, ?_, ⟨hadd, w.newChild os j a, rfl, ?_, HTable.get_cons _ _ _, i, hi, y, ?_, g2, ?_, g4, ?_, ?_, ?_, g5, ?_⟩,
        rfl, rfl, rfl⟩
      · refine WMoves.add hw ho hnone rfl rfl (.inl rfl) (Nat.lt_succ_self _) (Nat.le_succ _) (Nat.le_refl _)
          (o' := [os.hProcess, j.ends.theirs, j.ends.mine]) (by simp [ht, hm, hnd]) ?_ ?_ hw.single
          (fun _ _ _ => .rfl) (fun i hi => .inl ⟨i, hi, rfl, rfl⟩)
        · intro h; simp only [WCreation.owned, List.mem_cons, List.not_mem_nil, or_false]; grind
        · intro i hi; exact Nat.lt_succ_of_lt (hw.servers i hi)
      · intro _ h hh _; exact List.mem_cons_of_mem _ hh
      · show envBlock (mergeEnv os.sys j.config.envp) = _
        rw [hj.config]
      · show HTable.get ((os.hProcess, _) :: _) _ = _
        rw [HTable.get_cons_ne _ _ hm]; exact g1
      · refine (childHandles_get _ _ _ _).2 ⟨hj.marked, fun l h => (hl l h _).2 hj.policy.theirs, g3⟩
      · exact Nat.ne_of_gt (hw.servers i hi)
      · exact Nat.ne_of_gt (hw.objects _ _ g3)
      · exact Nat.lt_succ_of_lt (hw.objects _ _ g3)
      · intro h hh
        change HTable.get ((os.hProcess, _) :: _) h = _ at hh
        rw [HTable.get_cons_if] at hh
        split at hh
        · cases hh; exact absurd (hw.objects _ _ g3) (Nat.lt_irrefl _)
        · have := ho.closed j.ends.theirs (by simp [WCreation.owned]) h (hh.trans g3.symm)
          simp only [WCreation.owned, List.mem_cons, List.not_mem_nil, or_false] at this
          rcases this with rfl | rfl
          · simp
          · change w⟪j.ends.mine⟫ = _ at hh
            rw [g1] at hh; cases hh; exact absurd rfl g4
    · split
      · exact .stay hw ho rfl rfl (Nat.le_refl _) rfl ⟨hj.joined, hj.marked, hj.policy, hj.config⟩ rfl rfl rfl
      · exact .failEnds none hw ho rfl rfl (Nat.le_refl _) rfl
  | identifying e k prof =>
    obtain ⟨hj, ch, hch⟩ := hok
    simp only [WCreation.go]
    split
    · rename_i hpid
      have hch0 := hch
      obtain ⟨-, -, g0, i, hi, y, g1, g2, g3, g4, g5, g6, g7, g8, g9⟩ := hch
      obtain ⟨i', hi', y', j1, j2, j3, j4, j5⟩ := hj
      have hii : i' = i := g8 i' hi' (.inr (Option.some.inj (j1.symm.trans g1)))
      subst hii
      have hyy : y' = y := Option.some.inj (j2.symm.trans g2)
      subst hyy
      have hnd := ho.nodup
      simp only [WCreation.owned, List.nodup_cons, List.mem_cons, List.not_mem_nil, or_false, not_false_eq_true,
        List.nodup_nil, and_true] at hnd
      refine ⟨?_, fun hp => hp.elim (fun hp => absurd hpid (hp k)) (fun hg => by cases hg), fail_wphaseOk _ _ _ _, rfl,
        rfl, rfl⟩
      refine WMoves.sub hw rfl rfl (Nat.le_refl _) (o' := [e.theirs, e.mine]) (fun h hh => List.mem_cons_of_mem _ hh)
        ⟨by simp [hnd.2], fun h hh => ho.present h (List.mem_cons_of_mem _ hh), ?_⟩
      intro h hh k' hk'
      have := ho.closed h (List.mem_cons_of_mem _ hh) k' hk'
      rcases List.mem_cons.1 this with rfl | this
      · exfalso
        change w⟪os.hProcess⟫ = _ at hk'
        change w⟪os.hProcess⟫ = _ at g0
        simp only [List.mem_cons, List.not_mem_nil, or_false] at hh
        rcases hh with rfl | rfl
        · rw [g0, j3] at hk'; exact g6 (Option.some.inj hk')
        · rw [g0, g1] at hk'; exact g5 (Option.some.inj hk')
      · exact this
    · exact .at hw ho rfl ⟨hj, ch, hch⟩
  | attaching e q =>
    obtain ⟨hj, ch, hch⟩ := hok
    simp only [WCreation.go, WinWorld.openProcess]
    have hfail : WGoOk w ⟨c, p, os, .attaching e q, chd⟩ w
        (WCreation.at ⟨c, p, os, .attaching e q, chd⟩ (.fail none (dropsOf os q ++ [.handle e.theirs, .handle e.mine]))) :=
      .at hw ho (by rw [fail_holds, leftHandles_drops]; rfl) (fail_wphaseOk _ _ _ _)
    have hch0 := hch
    obtain ⟨c1, c2, g0, i, hi, y, g1, g2, g3, g4, g5, g6, g7, g8, g9⟩ := hch
    change w⟪os.hProcess⟫ = _ at g0
    cases hop : os.opened with
    | none => exact hfail
    | some h =>
      simp only [g0]
      by_cases hf : w.pw.handles.free h = true
      · simp only [if_pos hf]
        have hnone := ((HTable.free_iff _ _).1 hf).2
        have hne : ∀ k ∈ [os.hProcess, e.theirs, e.mine], h ≠ k := by
          rintro k hk rfl; exact ho.present h hk hnone
        have get : ∀ k v, w⟪k⟫ = some v → HTable.get ((h, ch.object) :: w.pw.handles) k = some v := by
          intro k v hv
          rw [HTable.get_cons_if, if_neg]
          · exact hv
          · rintro rfl; rw [hnone] at hv; cases hv
        refine ⟨?_, fun _ k hk _ => List.mem_cons_of_mem _ hk,
          ⟨hj.add hnone rfl rfl, ch, ⟨c1, c2, get _ _ g0, i, hi, y, get _ _ g1, g2, g3, g4, g5, g6, g7, g8, ?_⟩,
           HTable.get_cons _ _ _⟩, rfl, rfl, rfl⟩
        · refine WMoves.add hw ho hnone rfl rfl (.inr ⟨os.hProcess, by simp [WCreation.owned], g0⟩) (hw.objects _ _ g0)
            (Nat.le_refl _) (Nat.le_refl _) (o' := [h, os.hProcess, e.theirs, e.mine]) ?_ ?_ hw.servers hw.single
            (fun _ _ _ => .rfl) (fun i hi => .inl ⟨i, hi, rfl, rfl⟩)
          · rw [List.nodup_cons]
            exact ⟨fun hc => hne h hc rfl, ho.nodup⟩
          · intro k; rw [List.mem_cons, or_comm]; exact .rfl
        · intro k hk
          change HTable.get ((h, _) :: _) k = _ at hk
          rw [HTable.get_cons_if] at hk
          split at hk
          · exact absurd (Option.some.inj hk) g6
          · exact g9 k hk
      · simp only [if_neg hf]
        exact hfail
  | handing e q r =>
    obtain ⟨hj, ch, hch, hr⟩ := hok
    simp only [WCreation.go]
    obtain ⟨c1, c2, g0, i, hi, y, g1, g2, g3, g4, g5, g6, g7, g8, g9⟩ := hch
    obtain ⟨i', hi', y', j1, j2, j3, j4, j5⟩ := hj
    have hii : i' = i := g8 i' hi' (.inr (Option.some.inj (j1.symm.trans g1)))
    subst hii
    have hyy : y' = y := Option.some.inj (j2.symm.trans g2)
    subst hyy
    change w⟪os.hProcess⟫ = _ at g0
    have n1 : e.mine ≠ e.theirs := by intro he; rw [he, j3] at g1; exact j4 (Option.some.inj g1).symm
    have n2 : os.hProcess ≠ e.theirs := by intro he; rw [he, j3] at g0; exact g6 (Option.some.inj g0).symm
    have n3 : r ≠ e.theirs := by intro he; rw [he, j3] at hr; exact g6 (Option.some.inj hr).symm
    have hnd := ho.nodup
    simp only [WCreation.owned, List.nodup_cons, List.mem_cons, List.not_mem_nil, or_false, not_false_eq_true,
      List.nodup_nil, and_true, not_or] at hnd
    have get : ∀ k v, k ≠ e.theirs → w⟪k⟫ = some v → (w.close e.theirs)⟪k⟫ = some v := by
      intro k v hk hv; rw [close_get, if_neg hk]; exact hv
    have hm' : ∀ h, h ∈ [e.mine, r, os.hProcess] ↔ h ∈ [r, os.hProcess, e.theirs, e.mine] ∧ h ≠ e.theirs := by
      intro h; simp only [List.mem_cons, List.not_mem_nil, or_false]; grind
    refine ⟨?_, ?_, ⟨e.theirs, ch, ⟨c1, c2, get _ _ n2 g0, i', ?_, y', get _ _ n1 g1, g2, g3, g4, g5, g6, g7, ?_, ?_⟩,
      get _ _ n3 hr⟩, rfl, rfl, rfl⟩
    · refine WMoves.close hw ho (by simp [WCreation.owned]) (o' := [e.mine, r, os.hProcess]) ?_ hm'
      simp only [List.nodup_cons, List.mem_cons, List.not_mem_nil, or_false, not_false_eq_true, List.nodup_nil, and_true]
      grind
    · intro _ h hh hne
      refine (hm' h).2 ⟨hh, ?_⟩
      rintro rfl
      rw [close_get, if_pos rfl] at hne
      exact hne rfl
    · rw [mem_close_pipes, j3]
      exact ⟨hi, fun he => j4 (Option.some.inj he).symm⟩
    · intro i2 h2 he
      exact g8 i2 (mem_close_pipes.1 h2).1 he
    · intro k hk
      rw [close_get] at hk
      split at hk
      · cases hk
      · rename_i hne
        exact absurd (List.mem_singleton.1 (g9 k hk)) hne
  | spawning m q r =>
    simp only [WCreation.go]
    split
    · exact .at hw ho rfl trivial
    · refine .at hw ho ?_ (fail_wphaseOk _ _ _ _)
      rw [fail_holds]
      have := leftHandles_drops os q []
      rw [List.append_nil] at this
      show m :: r :: leftHandles (dropsOf os q) = _
      rw [this]; rfl
  | failing err left =>
    cases left with
    | nil => exact .at hw ho rfl trivial
    | cons l left =>
      cases l with
      | profile id =>
        exact .stay hw ho rfl rfl (Nat.le_refl _) (by simp only [WCreation.go]; rw [fail_holds]; rfl)
          (fail_wphaseOk _ _ _ _) rfl rfl rfl
      | handle h =>
        have hnd := ho.nodup
        change (h :: leftHandles left).Nodup at hnd
        rw [List.nodup_cons] at hnd
        have hm' : ∀ k, k ∈ leftHandles left ↔ k ∈ h :: leftHandles left ∧ k ≠ h := by
          intro k
          rw [List.mem_cons]
          constructor
          · intro hk; exact ⟨.inr hk, by rintro rfl; exact hnd.1 hk⟩
          · rintro ⟨h1 | h1, h2⟩
            · exact absurd h1 h2
            · exact h1
        refine ⟨?_, ?_, fail_wphaseOk _ _ _ _, rfl, rfl, rfl⟩
        · simp only [WCreation.go]
          rw [fail_holds]
          exact WMoves.close hw ho (by simp [WCreation.owned, leftHandles]) hnd.2 hm'
        · intro _ k hk hne
          simp only [WCreation.go] at hne ⊢
          rw [fail_holds]
          refine (hm' k).2 ⟨hk, ?_⟩
          rintro rfl
          change (w.close k)⟪k⟫ ≠ none at hne
          rw [close_get, if_pos rfl] at hne
          exact hne rfl
  | failed _ => cases hx
  | panicked => cases hx
  | served _ _ _ => cases hx

/-- A call's process is created by its `CreateProcessA`. -/
theorem wgo_child (w : WinWorld) (x : WCreation) : ∀ ch, (x.go w).2.child = some ch → x.child = some ch ∨
    ∃ j k f a prof, x.phase = .creating j k f a prof ∧ ch = w.newChild x.os j a := by
  intro ch hch
  obtain ⟨c, p, os, ph, chd⟩ := x
  cases ph with
  | creating j k f a prof =>
    simp only [WCreation.go] at hch
    split at hch
    · exact .inr ⟨j, k, f, a, prof, rfl, (Option.some.inj hch).symm⟩
    · split at hch <;> exact .inl hch
  | checking e p l => cases l <;> simp only [WCreation.go] at hch <;> first | exact .inl hch | (split at hch <;> exact .inl hch)
  | failing e l => cases l <;> exact .inl hch
  | _ => left; simp only [WCreation.go] at hch; revert hch; repeat' split
         all_goals exact id

end Iris
