import Verif.Model.WinHandle
import Verif.Lemmas.WinPipe
/-!
# C106, C107: Windows handles
-/
namespace Iris

theorem HTable.get_close_eq (t : HTable) (h : BitVec 64) : (t.close h).get h = none := by
  cases hg : (t.close h).get h with
  | none => rfl
  | some o =>
    have := HTable.get_mem hg
    simp [HTable.close] at this

theorem HTable.get_close_ne (t : HTable) {h k : BitVec 64} (hn : h ≠ k) : (t.close k).get h = t.get h := by
  induction t with
  | nil => rfl
  | cons e t ih =>
    obtain ⟨v, o⟩ := e
    by_cases hv : v = k
    · subst hv
      have : HTable.close ((v, o) :: t) v = HTable.close t v := by simp [HTable.close]
      rw [this, ih, HTable.get_cons_ne _ _ (Ne.symm hn)]
    · have : HTable.close ((v, o) :: t) k = (v, o) :: HTable.close t k := by simp [HTable.close, hv]
      rw [this]
      by_cases hh : v = h
      · subst hh; rw [HTable.get_cons, HTable.get_cons]
      · rw [HTable.get_cons_ne _ _ hh, HTable.get_cons_ne _ _ hh, ih]

theorem winOwner_mem {live : List (Nat × WinOwned)} {h : Nat} {o : WinOwned} (ho : winOwner live h = some o) :
    (h, o) ∈ live := by
  induction live with
  | nil => cases ho
  | cons x live ih =>
    obtain ⟨n, p⟩ := x
    simp only [winOwner] at ho
    split at ho
    · next hn => cases ho; subst hn; simp
    · simp [ih ho]

theorem winOwner_none {live : List (Nat × WinOwned)} {h : Nat} (ho : winOwner live h = none) :
    ∀ x ∈ live, x.1 ≠ h := by
  induction live with
  | nil => simp
  | cons x live ih =>
    obtain ⟨n, p⟩ := x
    simp only [winOwner] at ho
    split at ho
    · cases ho
    · next hn =>
      intro y hy
      rcases List.mem_cons.1 hy with rfl | hy
      · exact hn
      · exact ih ho y hy

theorem winReleased_mem {l : List WinOwned} {v : BitVec 64} {o : WinOwned} (ho : winReleased l v = some o) :
    o ∈ l ∧ o.value = v := by
  induction l with
  | nil => cases ho
  | cons x l ih =>
    simp only [winReleased] at ho
    split at ho
    · next hn => cases ho; exact ⟨by simp, hn⟩
    · exact ⟨by simp [(ih ho).1], (ih ho).2⟩

/-- Everything somebody is responsible for. -/
def WinHandleState.held (s : WinHandleState) : List WinOwned := s.live.map (·.2) ++ s.released

structure WinHandleInv (t0 : HTable) (s : WinHandleState) : Prop where
  good : s.badClose = false
  vars : (s.live.map (·.1)).Nodup
  values : (s.held.map (·.value)).Nodup
  owned : ∀ o ∈ s.held, s.table.get o.value = some o.object ∧ t0.get o.value = none ∧
    s.opened.count o.value = s.closed.count o.value + 1
  others : ∀ v, v ∉ s.held.map (·.value) → s.table.get v = t0.get v ∧ s.opened.count v = s.closed.count v

/-- Removing the variable with this name removes exactly what it holds. -/
theorem held_perm {live : List (Nat × WinOwned)} {h : Nat} {o : WinOwned} (hv : (live.map (·.1)).Nodup)
    (ho : winOwner live h = some o) : (live.map (·.2)).Perm (o :: (live.filter (fun x => x.1 ≠ h)).map (·.2)) := by
  induction live with
  | nil => cases ho
  | cons x live ih =>
    obtain ⟨n, p⟩ := x
    simp only [List.map_cons, List.nodup_cons] at hv
    simp only [winOwner] at ho
    split at ho
    · next hn =>
      cases ho; subst hn
      have : (live.filter (fun x => x.1 ≠ n)) = live := by
        rw [List.filter_eq_self]
        intro y hy
        simp only [ne_eq, decide_not, Bool.not_eq_true', decide_eq_false_iff_not]
        exact fun e => hv.1 (List.mem_map.2 ⟨y, hy, e⟩)
      rw [List.filter_cons_of_neg (by simp), this, List.map_cons]
    · next hn =>
      rw [List.filter_cons_of_pos (by simpa using hn), List.map_cons, List.map_cons]
      exact ((ih hv.2 ho).cons p).trans (List.Perm.swap _ _ _)

theorem released_perm {l : List WinOwned} {v : BitVec 64} {o : WinOwned} (hv : (l.map (·.value)).Nodup)
    (ho : winReleased l v = some o) : l.Perm (o :: l.filter (·.value ≠ v)) := by
  induction l with
  | nil => cases ho
  | cons x l ih =>
    simp only [List.map_cons, List.nodup_cons] at hv
    simp only [winReleased] at ho
    split at ho
    · next hn =>
      cases ho; subst hn
      have : (l.filter (·.value ≠ o.value)) = l := by
        rw [List.filter_eq_self]
        intro y hy
        simp only [ne_eq, decide_not, Bool.not_eq_true', decide_eq_false_iff_not]
        exact fun e => hv.1 (List.mem_map.2 ⟨y, hy, e⟩)
      rw [List.filter_cons_of_neg (by simp), this]
    · next hn =>
      rw [List.filter_cons_of_pos (by simpa using hn)]
      exact ((ih hv.2 ho).cons x).trans (List.Perm.swap _ _ _)

/-- The invariant only looks at what is held, not at its order. -/
theorem WinHandleInv.perm {t0 : HTable} {s s' : WinHandleState} (hi : WinHandleInv t0 s)
    (hp : s'.held.Perm s.held) (hvars : (s'.live.map (·.1)).Nodup) (ht : s'.table = s.table) (hb : s'.badClose = s.badClose)
    (ho : s'.opened = s.opened) (hc : s'.closed = s.closed) : WinHandleInv t0 s' where
  good := hb.trans hi.good
  vars := hvars
  values := (hp.map _).nodup_iff.2 hi.values
  owned := by
    intro o hm
    rw [ht, ho, hc]
    exact hi.owned o (hp.mem_iff.1 hm)
  others := by
    intro v hv
    rw [ht, ho, hc]
    exact hi.others v fun hm => hv ((hp.map _).mem_iff.2 hm)

theorem filter_vars {live : List (Nat × WinOwned)} {h : Nat} (hv : (live.map (·.1)).Nodup) :
    ((live.filter (fun x => x.1 ≠ h)).map (·.1)).Nodup :=
  hv.sublist ((List.filter_sublist).map _)

/-- Closing what nobody is responsible for any more. -/
theorem WinHandleInv.closed' {t0 : HTable} {s s' : WinHandleState} {o : WinOwned} (hi : WinHandleInv t0 s)
    (hp : s.held.Perm (o :: s'.held)) (hvars : (s'.live.map (·.1)).Nodup) (ht : s'.table = s.table)
    (hb : s'.badClose = s.badClose) (ho : s'.opened = s.opened) (hc : s'.closed = s.closed) :
    WinHandleInv t0 (s'.close o.value) := by
  have hown := hi.owned o (hp.mem_iff.2 (by simp))
  have hval := (hp.map (·.value)).nodup_iff.1 hi.values
  simp only [List.map_cons, List.nodup_cons] at hval
  have hne : ∀ p ∈ s'.held, p.value ≠ o.value := fun p hm e => hval.1 (List.mem_map.2 ⟨p, hm, e⟩)
  have hcl : s'.close o.value =
      { s' with
        table := s'.table.close o.value, inheritable := s'.inheritable.filter (· ≠ o.value)
        closed := o.value :: s'.closed } := by
    rw [WinHandleState.close, ht, hown.1]
  rw [hcl]
  refine ⟨hb.trans hi.good, hvars, hval.2, fun p hm => ?_, fun v hv => ?_⟩
  · have hp' : p ∈ s'.held := hm
    have h1 := hi.owned p (hp.mem_iff.2 (by simp [hp']))
    refine ⟨?_, h1.2.1, ?_⟩
    · show (s'.table.close o.value).get p.value = _
      rw [HTable.get_close_ne _ (hne p hp'), ht, h1.1]
    · show s'.opened.count p.value = (o.value :: s'.closed).count p.value + 1
      rw [List.count_cons_of_ne (Ne.symm (hne p hp')), ho, hc, h1.2.2]
  · have hv' : v ∉ s'.held.map (·.value) := hv
    show (s'.table.close o.value).get v = _ ∧ s'.opened.count v = (o.value :: s'.closed).count v
    by_cases hvo : v = o.value
    · subst hvo
      rw [HTable.get_close_eq, hown.2.1, List.count_cons_self, ho, hc, hown.2.2]
      exact ⟨rfl, rfl⟩
    · have h1 := hi.others v fun hm => by
        have := (hp.map (·.value)).mem_iff.1 hm
        rcases List.mem_cons.1 this with h | h
        · exact hvo h
        · exact hv' h
      rw [HTable.get_close_ne _ hvo, ht, List.count_cons_of_ne (Ne.symm hvo), ho, hc]
      exact h1

/-- No operation is a `clone`. -/
def NoClone (ops : List WinHandleOp) : Prop := ∀ h h2 made result, WinHandleOp.clone h h2 made result ∉ ops

theorem WinHandleInv.step {t0 : HTable} {s : WinHandleState} (hi : WinHandleInv t0 s) (op : WinHandleOp)
    (hop : ∀ h h2 made result, op ≠ .clone h h2 made result) : WinHandleInv t0 (s.step op) := by
  cases op with
  | clone h h2 made result => exact absurd rfl (hop h h2 made result)
  | create h v object =>
    simp only [WinHandleState.step]
    split
    · next hc =>
      obtain ⟨hc1, hc2⟩ := hc
      have hfree := ((HTable.free_iff _ _).1 hc2).2
      have hnot : v ∉ s.held.map (·.value) := by
        intro hm
        obtain ⟨o, ho, e⟩ := List.mem_map.1 hm
        have := (hi.owned o ho).1
        rw [e, hfree] at this
        cases this
      have hv := hi.others v hnot
      refine ⟨hi.good, ?_, ?_, ?_, ?_⟩
      · simp only [List.map_cons, List.nodup_cons]
        refine ⟨fun hm => ?_, hi.vars⟩
        obtain ⟨x, hx, e⟩ := List.mem_map.1 hm
        exact winOwner_none hc1 x hx e
      · exact List.nodup_cons.2 ⟨hnot, hi.values⟩
      · intro o ho
        rcases List.mem_cons.1 (show o ∈ (⟨v, object⟩ : WinOwned) :: s.held from ho) with rfl | ho
        · refine ⟨HTable.get_cons _ _ _, by rw [← hv.1, hfree], ?_⟩
          show (v :: s.opened).count v = _
          rw [List.count_cons_self, hv.2]
        · have h1 := hi.owned o ho
          have hne : v ≠ o.value := fun e => hnot (e ▸ List.mem_map.2 ⟨o, ho, rfl⟩)
          refine ⟨?_, h1.2.1, ?_⟩
          · exact (HTable.get_cons_ne _ _ hne).trans h1.1
          · show (v :: s.opened).count o.value = _
            rw [List.count_cons_of_ne hne, h1.2.2]
      · intro u hu
        have hu' : u ≠ v ∧ u ∉ s.held.map (·.value) := by
          constructor
          · rintro rfl; exact hu (by simp [WinHandleState.held])
          · intro hm; exact hu (List.mem_cons_of_mem _ hm)
        have h1 := hi.others u hu'.2
        refine ⟨(HTable.get_cons_ne _ _ (Ne.symm hu'.1)).trans h1.1, ?_⟩
        show (v :: s.opened).count u = _
        rw [List.count_cons_of_ne (Ne.symm hu'.1), h1.2]
    · exact hi
  | intoRaw h =>
    simp only [WinHandleState.step]
    split
    · next o ho =>
      refine hi.perm ?_ (filter_vars hi.vars) rfl rfl rfl rfl
      have := (held_perm hi.vars ho).append_right s.released
      exact (List.perm_middle).trans this.symm
    · exact hi
  | adopt v h =>
    simp only [WinHandleState.step]
    split
    · next o h1 h2 =>
      refine hi.perm ?_ ?_ rfl rfl rfl rfl
      · have hr : (s.released.map (·.value)).Nodup := by
          have := hi.values
          rw [WinHandleState.held, List.map_append] at this
          exact (List.nodup_append.1 this).2.1
        have := (released_perm hr h1).append_left (s.live.map (·.2))
        exact (List.perm_middle.symm).trans this.symm
      · simp only [List.map_cons, List.nodup_cons]
        refine ⟨fun hm => ?_, hi.vars⟩
        obtain ⟨x, hx, e⟩ := List.mem_map.1 hm
        exact winOwner_none h2 x hx e
    · exact hi
  | setInheritable h allow =>
    simp only [WinHandleState.step]
    split
    · exact hi.perm (List.Perm.refl _) hi.vars rfl rfl rfl rfl
    · exact hi
  | drop h =>
    simp only [WinHandleState.step]
    split
    · next o ho =>
      refine hi.closed' ?_ (filter_vars hi.vars) rfl rfl rfl rfl
      exact (held_perm hi.vars ho).append_right s.released
    · exact hi

theorem winHandleInv_run (t0 : HTable) (i0 : List (BitVec 64)) (ops : List WinHandleOp) (h : NoClone ops) :
    WinHandleInv t0 ((WinHandleState.start t0 i0).run ops) := by
  have : ∀ s, WinHandleInv t0 s → WinHandleInv t0 (s.run ops) := by
    induction ops with
    | nil => exact fun s hs => hs
    | cons op ops ih =>
      intro s hs
      refine ih (fun a b c d hm => h a b c d (List.mem_cons_of_mem _ hm)) _ (hs.step op ?_)
      exact fun a b c d e => h a b c d (by simp [e])
  exact this _ ⟨rfl, List.nodup_nil, List.nodup_nil, by simp [WinHandleState.start, WinHandleState.held],
    by simp [WinHandleState.start]⟩

/-- `CloseHandle` on a value which is no handle is seen as such, and on a handle it is not. -/
example : ((WinHandleState.start [] []).close 4#64).badClose = true ∧ ((WinHandleState.start [] []).close 4#64).closed = [4#64] ∧
    ((WinHandleState.start [(4#64, 7)] []).close 4#64).badClose = false := by decide

/-- **C106**, as far as it is true. Run any program of operations on handles that clones none, from any table. `CloseHandle` is
only called on handles; no two variables hold the same handle; a handle held by a variable or given up by
`into_raw` refers to the object it was made for; every other value refers to what it did at the start. -/
theorem C106_owned_partial (t0 : HTable) (i0 : List (BitVec 64)) (ops : List WinHandleOp) (h : NoClone ops) :
    let s := (WinHandleState.start t0 i0).run ops
    s.badClose = false ∧
    (∀ h1 h2 o1 o2, (h1, o1) ∈ s.live → (h2, o2) ∈ s.live → o1.value = o2.value → h1 = h2) ∧
    (∀ o, ((∃ h, (h, o) ∈ s.live) ∨ o ∈ s.released) → s.table.get o.value = some o.object) ∧
    (∀ v, (¬ ∃ h o, (h, o) ∈ s.live ∧ o.value = v) → (¬ ∃ o ∈ s.released, o.value = v) → s.table.get v = t0.get v) := by
  intro s
  have hi := winHandleInv_run t0 i0 ops h
  refine ⟨hi.good, ?_, ?_, ?_⟩
  · intro h1 h2 o1 o2 m1 m2 e
    have hv := hi.values
    rw [WinHandleState.held, List.map_append] at hv
    have hv := (List.nodup_append.1 hv).1
    have key : ∀ l : List (Nat × WinOwned), ((l.map (·.2)).map (·.value)).Nodup → (h1, o1) ∈ l → (h2, o2) ∈ l → h1 = h2 := by
      intro l hl
      induction l with
      | nil => simp
      | cons x l ih =>
        obtain ⟨k, f⟩ := x
        simp only [List.map_cons, List.nodup_cons] at hl
        simp only [List.mem_cons, Prod.mk.injEq]
        rintro (⟨e1, e2⟩ | a1) (⟨e3, e4⟩ | a2)
        · rw [e1, e3]
        · exact absurd (List.mem_map.2 ⟨o2, List.mem_map.2 ⟨_, a2, rfl⟩, by rw [← e, e2]⟩) hl.1
        · exact absurd (List.mem_map.2 ⟨o1, List.mem_map.2 ⟨_, a1, rfl⟩, by rw [e, e4]⟩) hl.1
        · exact ih hl.2 a1 a2
    exact key _ hv m1 m2
  · intro o ho
    refine (hi.owned o ?_).1
    rcases ho with ⟨h, hm⟩ | hm
    · exact List.mem_append_left _ (List.mem_map.2 ⟨_, hm, rfl⟩)
    · exact List.mem_append_right _ hm
  · intro v h1 h2
    refine (hi.others v fun hm => ?_).1
    obtain ⟨o, ho, e⟩ := List.mem_map.1 hm
    rcases List.mem_append.1 ho with ho | ho
    · obtain ⟨x, hx, e2⟩ := List.mem_map.1 ho
      exact h1 ⟨x.1, o, by rw [← e2]; exact hx, e⟩
    · exact h2 ⟨o, ho, e⟩

/-- Closed exactly once: every time the system handed out the value `v` there is one `CloseHandle` of it, except for the last
time if somebody is still responsible for it. -/
theorem C106_closed_once_partial (t0 : HTable) (i0 : List (BitVec 64)) (ops : List WinHandleOp) (h : NoClone ops)
    (v : BitVec 64) :
    let s := (WinHandleState.start t0 i0).run ops
    (((∃ h o, (h, o) ∈ s.live ∧ o.value = v) ∨ ∃ o ∈ s.released, o.value = v) → s.opened.count v = s.closed.count v + 1) ∧
    (¬ ((∃ h o, (h, o) ∈ s.live ∧ o.value = v) ∨ ∃ o ∈ s.released, o.value = v) → s.opened.count v = s.closed.count v) := by
  intro s
  have hi := winHandleInv_run t0 i0 ops h
  have hm : ((∃ h o, (h, o) ∈ s.live ∧ o.value = v) ∨ ∃ o ∈ s.released, o.value = v) ↔ v ∈ s.held.map (·.value) := by
    simp only [WinHandleState.held, List.mem_map, List.mem_append]
    constructor
    · rintro (⟨h, o, h1, h2⟩ | ⟨o, h1, h2⟩)
      · exact ⟨o, .inl ⟨_, h1, rfl⟩, h2⟩
      · exact ⟨o, .inr h1, h2⟩
    · rintro ⟨o, (⟨x, h1, rfl⟩ | h1), h2⟩
      · exact .inl ⟨x.1, x.2, h1, h2⟩
      · exact .inr ⟨o, h1, h2⟩
  rw [hm]
  constructor
  · intro hv
    obtain ⟨o, ho, rfl⟩ := List.mem_map.1 hv
    exact (hi.owned o ho).2.2
  · exact fun hv => (hi.others v hv).2

/-- A program with an `into_raw`, an adoption, and drops. -/
example :
    let s := (WinHandleState.start [(4, 7)] [4]).run
      [.create 0 8 42, .create 1 12 43, .setInheritable 1 true, .drop 0, .create 2 8 44, .intoRaw 1, .adopt 12 5, .drop 2]
    s.live = [(5, ⟨12, 43⟩)] ∧ s.closed = [8, 8] ∧ s.opened = [8, 12, 8] ∧ s.table = [(12, 43), (4, 7)] ∧
      s.inheritable = [12, 4] := by
  decide +kernel

/-- `clone` never gives a handle to the same object (unless the handle made happens to be the number that stands for success):
whatever the system does, what the new variable holds is that number, and the handle made is never closed, not even when every
variable is gone. -/
theorem C106_clone_violated (t : HTable) (i : List (BitVec 64)) (v d : BitVec 64) (object : Nat) (result : BitVec 32)
    (hv : t.free v = true) (hd : HTable.free ((v, object) :: t) d = true) (hr : result.msb = false)
    (hd' : result.setWidth 64 ≠ d) :
    let s := (WinHandleState.start t i).run [.create 0 v object, .clone 0 1 (some d) result]
    let s' := s.run [.drop 0, .drop 1]
    (winOwner s.live 1).map (·.value) = some (result.setWidth 64) ∧
    s'.live = [] ∧ s'.released = [] ∧ s'.table.get d = some object ∧ t.get d = none := by
  have hvd : v ≠ d := by
    rintro rfl
    have := ((HTable.free_iff _ _).1 hd).2
    rw [HTable.get_cons] at this
    cases this
  have hnone : t.get d = none := by
    have := ((HTable.free_iff _ _).1 hd).2
    rwa [HTable.get_cons_ne _ _ hvd] at this
  have hclose : ∀ (s : WinHandleState) (x : BitVec 64), x ≠ d → (s.close x).table.get d = s.table.get d ∧
      (s.close x).live = s.live ∧ (s.close x).released = s.released := by
    intro s x hx
    simp only [WinHandleState.close]
    split
    · exact ⟨HTable.get_close_ne _ (Ne.symm hx), rfl, rfl⟩
    · exact ⟨rfl, rfl, rfl⟩
  have s1 : (WinHandleState.start t i).step (.create 0 v object) =
      ⟨(v, object) :: t, i, [(0, ⟨v, object⟩)], [], false, [v], []⟩ := by
    simp [WinHandleState.step, WinHandleState.start, winOwner, hv]
  have s2 : WinHandleState.step ⟨(v, object) :: t, i, [(0, ⟨v, object⟩)], [], false, [v], []⟩ (.clone 0 1 (some d) result) =
      ⟨(d, object) :: (v, object) :: t, i, [(1, ⟨result.setWidth 64, object⟩), (0, ⟨v, object⟩)], [], false, [d, v], []⟩ := by
    simp [WinHandleState.step, winOwner, hd, hr]
  have s3 : ∀ (s : WinHandleState), s.live = [(1, ⟨result.setWidth 64, object⟩), (0, ⟨v, object⟩)] →
      s.step (.drop 0) = WinHandleState.close { s with live := [(1, ⟨result.setWidth 64, object⟩)] } v := by
    intro s hs
    simp [WinHandleState.step, winOwner, hs]
  have s4 : ∀ (s : WinHandleState), s.live = [(1, ⟨result.setWidth 64, object⟩)] →
      s.step (.drop 1) = WinHandleState.close { s with live := [] } (result.setWidth 64) := by
    intro s hs
    simp [WinHandleState.step, winOwner, hs]
  simp only [WinHandleState.run, List.foldl_cons, List.foldl_nil, s1, s2]
  refine ⟨rfl, ?_⟩
  rw [s3 _ rfl, s4 _ (hclose _ _ hvd).2.1]
  refine ⟨(hclose _ _ hd').2.1, (hclose _ _ hd').2.2.trans (hclose _ _ hvd).2.2, ?_, hnone⟩
  refine (hclose _ _ hd').1.trans ((hclose _ _ hvd).1.trans (HTable.get_cons _ _ _))

/-- The system returns 1 for success. -/
example : HTable.free [] 4 = true ∧ HTable.free [(4, 42)] 8 = true ∧ (1 : BitVec 32).msb = false ∧
    (1 : BitVec 32).setWidth 64 ≠ (8 : BitVec 64) := by decide

/-! ## C107: inheritability -/

/-- **C107**. If `set_inheritable` succeeds, `is_inheritable` says what was set, and of every other handle what it said
before; it succeeds for handles, and otherwise changes nothing. The errors name the call that failed and the handle, with the
code of the system: 6, "the handle is invalid". -/
theorem C107_inheritable (t : HTable) (i : List (BitVec 64)) (h : BitVec 64) (allow : Bool) :
    (t.get h ≠ none → (winSetInheritable t i h allow).1 = .ok () ∧
      winGetInheritable t (winSetInheritable t i h allow).2 h = .ok allow) ∧
    (t.get h = none →
      (winSetInheritable t i h allow).1 = .error (.internalOsOperationFailed c!"SetHandleInformation() failed" h 6) ∧
      (winSetInheritable t i h allow).2 = i ∧
      winGetInheritable t i h = .error (.internalOsOperationFailed c!"GetHandleInformation() failed" h 6)) ∧
    ∀ k, k ≠ h → winGetInheritable t (winSetInheritable t i h allow).2 k = winGetInheritable t i k := by
  refine ⟨fun hg => ?_, fun hg => ?_, fun k hk => ?_⟩
  · cases hg' : t.get h with
    | none => exact absurd hg' hg
    | some o =>
      simp only [winSetInheritable, winGetInheritable, hg', true_and]
      cases allow <;> simp
  · simp [winSetInheritable, winGetInheritable, hg]
  · simp only [winGetInheritable]
    split
    · rfl
    · next o ho =>
      simp only [winSetInheritable]
      split
      · rfl
      · have : ∀ l : List (BitVec 64), (l.filter (· ≠ h)).contains k = l.contains k := by
          intro l
          have : k ∈ l.filter (· ≠ h) ↔ k ∈ l := by simp [hk]
          rw [Bool.eq_iff_iff, List.contains_iff_mem, List.contains_iff_mem, this]
        cases allow
        · simp only [Bool.false_eq_true, if_false, this]
        · simp only [if_true, List.contains_cons, this]
          have : (k == h) = false := by simpa using hk
          rw [this, Bool.false_or]

example : HTable.get [(8, 3)] 8 ≠ none ∧ HTable.get [(8, 3)] 4 = none := by decide

end Iris
