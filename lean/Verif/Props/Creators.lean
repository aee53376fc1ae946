import Verif.Lemmas.Creators
import Verif.Props.Process
/-! # C129: workers created while other threads of the broker run -/
namespace Iris
open Spec

/-- The descriptors and streams of a started program, in terms of the table it was created with. -/
theorem clone_started {t t0 : FdTable} {x : Creation} {e : ChanEnds} {p : Policy} {c : ProcessConfig} {q : PipeEnds}
    (hw : t.WF) (hc : ChanIs x t e) (hpol : PolicyFor x e p []) (hcfg : ConfigFor x e c)
    (hq : PipeIs x t q FD_CLOEXEC) (hb : ∀ fd, Declared x.policy x.config fd →
      t.get fd = t0.get fd ∧ fd ≠ e.theirs ∧ fd ≠ q.wr) (hne : e.theirs ≠ q.wr) (img : Image)
    (hs : cloneEntrypoint x.os.proc.entry (entryParams p c x.os.proc q.wr) t x.caps = .started img) :
    (∃ a b, x.os.socketpair = .ok (a, b) ∧ StartedRight t0 x.config x.policy b img) ∧
    StreamIs t0 img 0 x.config.stdin ∧ (x.config.stdout ≠ some 0 → StreamIs t0 img 1 x.config.stdout) ∧
    (x.config.stderr ≠ some 0 → x.config.stderr ≠ some 1 → StreamIs t0 img 2 x.config.stderr) := by
  subst hcfg
  obtain ⟨a, b, hsp, _, hth⟩ := hc
  obtain ⟨r, _, _, hwr⟩ := hq
  have hinh : ∀ n, n ∈ p.inherit ↔ Declared x.policy x.config n ∨ n = e.theirs := by
    intro n
    have := hpol n
    rw [mem_streams] at this
    simp only [List.not_mem_nil, or_false] at this
    rw [this]
    simp only [Declared, Policy.inheritedHandles]
    grind
  rcases cloneEntrypoint_cases x.os.proc.entry
      (entryParams p { x.config with envp := x.config.envp ++ [ipcHandleVar e.theirs] } x.os.proc q.wr) t x.caps with
    hg | ⟨s, f0, f1, f2, hr, he⟩
  · rw [hg] at hs; cases hs
  rw [he] at hs
  unfold execOrReport at hs
  split at hs
  case h_2 => cases hs
  cases hs
  have hne' : p.inherit ≠ [] := List.ne_nil_of_mem ((hinh e.theirs).2 (.inr rfl))
  have hget : ∀ n, (closeOnExec s.table).get n = (if n = 0 then some ⟨f0, 0#32⟩ else if n = 1 then some ⟨f1, 0#32⟩
      else if n = 2 then some ⟨f2, 0#32⟩ else if n ∈ p.inherit then
        (t.get n).filter fun e => decide (e.flags &&& FD_CLOEXEC = 0#32) else none) := by
    intro n
    rw [closeOnExec_get (hr.wf hw), hr.get hw]
    by_cases h0 : n = 0
    · simp [h0, Option.filter_some]
    rw [if_neg h0, if_neg h0]
    by_cases h1 : n = 1
    · simp [h1, Option.filter_some]
    rw [if_neg h1, if_neg h1]
    by_cases h2 : n = 2
    · simp [h2, Option.filter_some]
    rw [if_neg h2, if_neg h2]
    by_cases hk : n ∈ p.inherit
    · rw [if_pos hk, if_pos]
      exact ⟨hne', .inr (.inl hk)⟩
    rw [if_neg hk]
    by_cases hq : n = q.wr
    · rw [if_pos ⟨hne', .inr (.inr hq)⟩, hq, hwr, Option.filter_some]
      exact if_neg (by simp [FD_CLOEXEC])
    · rw [if_neg]
      · rfl
      · rintro ⟨_, h | h | h⟩
        · omega
        · exact hk h
        · exact hq h
  have hkept : ∀ (h : Nat), Declared x.policy x.config h → ∀ (e' : FdEntry),
      FdTable.get (t.filter fun y => decide (Kept (entryParams p
        { x.config with envp := x.config.envp ++ [ipcHandleVar e.theirs] } x.os.proc q.wr) y.1)) h = some e' →
      t0.get h = some e' := by
    intro h hd e' hk
    rw [kept_get hw] at hk
    split at hk
    · rw [← (hb h hd).1]; exact hk
    · cases hk
  refine ⟨⟨a, b, hsp, e.theirs, fun h => (hb _ h).2.1 rfl, ?_, ?_⟩, ?_, ?_, ?_⟩
  · show x.config.envp ++ [ipcHandleVar e.theirs] = _
    rw [ipcVar_text]
  · intro fd e' hfd
    show (closeOnExec s.table).get fd = some e' ↔ _
    rw [hget, if_neg (by omega), if_neg (by omega), if_neg (by omega)]
    by_cases hth' : fd = e.theirs
    · rw [if_pos ((hinh fd).2 (.inr hth')), hth', hth, Option.filter_some, if_pos (by simp [FD_CLOEXEC])]
      constructor
      · intro h; cases h; exact .inl ⟨rfl, rfl⟩
      · rintro (⟨_, rfl⟩ | ⟨h, _⟩)
        · rfl
        · exact absurd rfl (hb _ h).2.1
    · by_cases hd : Declared x.policy x.config fd
      · rw [if_pos ((hinh fd).2 (.inl hd)), (hb fd hd).1, ← inherits_iff]
        constructor
        · intro h
          obtain ⟨h1, h2⟩ := Option.filter_eq_some_iff.1 h
          exact .inr ⟨hd, ⟨e', h1, by simpa using h2⟩, h1⟩
        · rintro (⟨h, _⟩ | ⟨_, ⟨e'', h1, h2⟩, h3⟩)
          · exact absurd h hth'
          · rw [h3] at h1
            cases h1
            exact Option.filter_eq_some_iff.2 ⟨h3, by simpa using h2⟩
      · rw [if_neg (fun h => ((hinh fd).1 h).elim hd hth')]
        constructor
        · intro h; cases h
        · rintro (⟨h, _⟩ | ⟨h, _⟩)
          · exact absurd h hth'
          · exact absurd h hd
  · have g0 : (closeOnExec s.table).get 0 = some ⟨f0, 0#32⟩ := by rw [hget]; rfl
    have hsrc := hr.src0
    cases hi : x.config.stdin with
    | none => exact ⟨_, _, g0, hr.null0 hi⟩
    | some y =>
      simp only [entryParams, hi, stdSource] at hsrc
      obtain ⟨e', he', hf⟩ := hsrc
      rw [FdTable.get_erase] at he'
      split at he'
      · cases he'
      · exact ⟨e', _, hkept y (.inr (.inl hi)) e' he', g0, hf.symm⟩
  · intro h0
    have g1 : (closeOnExec s.table).get 1 = some ⟨f1, 0#32⟩ := by rw [hget]; rfl
    have hsrc := hr.src1
    cases hi : x.config.stdout with
    | none => exact ⟨_, _, g1, hr.null1 hi⟩
    | some y =>
      simp only [entryParams, hi, stdSource] at hsrc
      obtain ⟨e', he', hf⟩ := hsrc
      have hx0 : y ≠ 0 := fun hc => h0 (by rw [hi, hc])
      rw [FdTable.get_erase] at he'
      split at he'
      · cases he'
      · rw [FdTable.get_cons, if_neg hx0, FdTable.get_erase, if_neg hx0] at he'
        exact ⟨e', _, hkept y (.inr (.inr (.inl hi))) e' he', g1, hf.symm⟩
  · intro h0 h1
    have g2 : (closeOnExec s.table).get 2 = some ⟨f2, 0#32⟩ := by rw [hget]; rfl
    have hsrc := hr.src2
    cases hi : x.config.stderr with
    | none => exact ⟨_, _, g2, hr.null2 hi⟩
    | some y =>
      simp only [entryParams, hi, stdSource] at hsrc
      obtain ⟨e', he', hf⟩ := hsrc
      have hx0 : y ≠ 0 := fun hc => h0 (by rw [hi, hc])
      have hx1 : y ≠ 1 := fun hc => h1 (by rw [hi, hc])
      rw [FdTable.get_erase] at he'
      split at he'
      · cases he'
      · rw [FdTable.get_cons, if_neg hx1, FdTable.get_erase, if_neg hx1, FdTable.get_cons, if_neg hx0,
          FdTable.get_erase, if_neg hx0] at he'
        exact ⟨e', _, hkept y (.inr (.inr (.inr hi))) e' he', g2, hf.symm⟩

/-- What is right about a process created by call `x`, `before` being the broker's table when the call
was made. -/
def ChildRight (before : FdTable) (x : Creation) : Prop :=
  ∀ ch img, x.child = some ch → ch.ending = .started img →
    (∃ a b, x.os.socketpair = .ok (a, b) ∧ StartedRight before x.config x.policy b img) ∧
    StreamIs before img 0 x.config.stdin ∧ (x.config.stdout ≠ some 0 → StreamIs before img 1 x.config.stdout) ∧
    (x.config.stderr ≠ some 0 → x.config.stderr ≠ some 1 → StreamIs before img 2 x.config.stderr)

/-- No descriptor belongs to two calls, those of a call are open, those borrowed are as they were
when the call was made. -/
structure CreatorsInv (ls : List CreateEvent) (w : Creators) : Prop where
  wf : w.table.WF
  nodup : ∀ j x, w.calls j = some x → x.phase.owned.Nodup
  apart : ∀ j k x y, j ≠ k → w.calls j = some x → w.calls k = some y →
    ∀ fd ∈ x.phase.owned, fd ∉ y.phase.owned
  present : ∀ j x, w.calls j = some x → ∀ fd ∈ x.phase.owned, w.table.get fd ≠ none
  ok : ∀ j x, w.calls j = some x → PhaseOk w.table x
  made : ∀ j c p caps os before, .made j c p caps os before ∈ ls → ∃ x, w.calls j = some x ∧
    x.config = c ∧ x.policy = p ∧ x.caps = caps ∧ x.os = os ∧
    (x.phase.over = false → ∀ fd, Declared p c fd → w.table.get fd = before.get fd ∧
      w.table.get fd ≠ none ∧ ∀ k y, w.calls k = some y → fd ∉ y.phase.owned) ∧
    ChildRight before x
  holds : ∀ j x, w.calls j = some x → ∀ fd ∈ x.phase.holding, HoldsFd j ls fd
  only : ∀ j x, w.calls j = some x → nfiles x.os ≤ 1 → ∀ fd, HoldsFd j ls fd → fd ∈ x.phase.holding
  idle : ∀ j, w.calls j = none → ∀ fd, ¬ HoldsFd j ls fd
  own : ∀ l1 l2 j before after, ls = l1 ++ .step j before after :: l2 → ∀ fd, before.get fd ≠ none →
    after.get fd ≠ before.get fd → HoldsFd j l1 fd

theorem holds_step (j k : Nat) (ls : List CreateEvent) (b a : FdTable) (fd : Nat) :
    HoldsFd j (ls ++ [.step k b a]) fd ↔
      if k = j then a.get fd ≠ none ∧ (HoldsFd j ls fd ∨ b.get fd = none) else HoldsFd j ls fd := by
  simp only [HoldsFd, List.foldl_append, List.foldl_cons, List.foldl_nil]
  by_cases h : k = j <;> simp [h]

theorem holds_made (j k : Nat) (ls : List CreateEvent) (c p caps os) (b : FdTable) (fd : Nat) :
    HoldsFd j (ls ++ [.made k c p caps os b]) fd ↔ HoldsFd j ls fd := by
  simp only [HoldsFd, List.foldl_append, List.foldl_cons, List.foldl_nil]

theorem put_self (w : Creators) (j : Nat) (x : FdTable × Creation) : (w.put j x).calls j = some x.2 := by
  simp [Creators.put]

theorem put_other (w : Creators) {j k : Nat} (x : FdTable × Creation) (h : k ≠ j) :
    (w.put j x).calls k = w.calls k := by
  simp [Creators.put, h]

theorem snoc_split {ls l1 l2 : List CreateEvent} {ev ev' : CreateEvent}
    (h : ls ++ [ev] = l1 ++ ev' :: l2) :
    (l2 = [] ∧ l1 = ls ∧ ev' = ev) ∨ ∃ l3, ls = l1 ++ ev' :: l3 := by
  rcases List.eq_nil_or_concat l2 with rfl | ⟨l3, z, rfl⟩
  · left
    have := List.append_inj' (s₁ := ls) (s₂ := l1) h rfl
    exact ⟨rfl, this.1.symm, by simpa using this.2.symm⟩
  · right
    refine ⟨l3, ?_⟩
    have h' : ls ++ [ev] = (l1 ++ ev' :: l3) ++ [z] := by simpa using h
    exact (List.append_inj' h' rfl).1

theorem inv_call {ls : List CreateEvent} {w : Creators} {j : Nat} {c : ProcessConfig} {p : Policy} {caps : Caps}
    {os : NewOs} (hi : CreatorsInv ls w) (hj : w.calls j = none)
    (hb : ∀ fd, Declared p c fd → w.table.get fd ≠ none ∧ ∀ k x, w.calls k = some x → fd ∉ x.phase.owned) :
    CreatorsInv (ls ++ [.made j c p caps os w.table]) (w.put j (w.table, .make c p caps os)) := by
  have get : ∀ k x, (w.put j (w.table, .make c p caps os)).calls k = some x →
      (k = j ∧ x = .make c p caps os) ∨ (k ≠ j ∧ w.calls k = some x) := by
    intro k x h
    by_cases hk : k = j
    · rw [hk, put_self] at h; cases h; exact .inl ⟨hk, rfl⟩
    · rw [put_other _ _ hk] at h; exact .inr ⟨hk, h⟩
  have mt : (w.put j (w.table, Creation.make c p caps os)).table = w.table := rfl
  refine ⟨hi.wf, ?_, ?_, ?_, ?_, ?_, ?_, ?_, ?_, ?_⟩
  · intro k x h
    rcases get k x h with ⟨_, rfl⟩ | ⟨_, h⟩
    · exact List.nodup_nil
    · exact hi.nodup k x h
  · intro a b x y hab hx hy fd hfd hfd'
    rcases get a x hx with ⟨_, rfl⟩ | ⟨_, hx⟩
    · cases hfd
    rcases get b y hy with ⟨_, rfl⟩ | ⟨_, hy⟩
    · cases hfd'
    exact hi.apart a b x y hab hx hy fd hfd hfd'
  · intro k x h
    rcases get k x h with ⟨_, rfl⟩ | ⟨_, h⟩
    · intro fd hfd; cases hfd
    · exact hi.present k x h
  · intro k x h
    rcases get k x h with ⟨_, rfl⟩ | ⟨_, h⟩
    · trivial
    · exact hi.ok k x h
  · intro k c' p' caps' os' before hm
    rcases List.mem_append.1 hm with hm | hm
    · obtain ⟨x, h1, h2, h3, h4, h5, h6, h7⟩ := hi.made k c' p' caps' os' before hm
      have hk : k ≠ j := by rintro rfl; rw [hj] at h1; cases h1
      refine ⟨x, by rw [put_other _ _ hk]; exact h1, h2, h3, h4, h5, ?_, h7⟩
      intro ho fd hfd
      obtain ⟨g1, g2, g3⟩ := h6 ho fd hfd
      refine ⟨g1, g2, fun k' y hy => ?_⟩
      rcases get k' y hy with ⟨_, rfl⟩ | ⟨_, hy⟩
      · intro hc; cases hc
      · exact g3 k' y hy
    · rw [List.mem_singleton] at hm
      cases hm
      refine ⟨_, put_self _ _ _, rfl, rfl, rfl, rfl, ?_, ?_⟩
      · intro _ fd hfd
        refine ⟨rfl, (hb fd hfd).1, fun k' y hy => ?_⟩
        rcases get k' y hy with ⟨_, rfl⟩ | ⟨_, hy⟩
        · intro hc; cases hc
        · exact (hb fd hfd).2 k' y hy
      · intro ch img h; cases h
  · intro k x h fd hfd
    rw [holds_made]
    rcases get k x h with ⟨_, rfl⟩ | ⟨_, h⟩
    · cases hfd
    · exact hi.holds k x h fd hfd
  · intro k x h hn fd hfd
    rw [holds_made] at hfd
    rcases get k x h with ⟨rfl, rfl⟩ | ⟨_, h⟩
    · exact absurd hfd (hi.idle k hj fd)
    · exact hi.only k x h hn fd hfd
  · intro k h fd
    rw [holds_made]
    by_cases hk : k = j
    · rw [hk, put_self] at h; cases h
    · rw [put_other _ _ hk] at h
      exact hi.idle k h fd
  · intro l1 l2 k b a h
    rcases snoc_split h with ⟨_, _, hc⟩ | ⟨l3, h⟩
    · cases hc
    · exact hi.own l1 l3 k b a h

theorem inv_go {abi : Abi} {ls : List CreateEvent} {w : Creators} {j : Nat} {x : Creation}
    (hi : CreatorsInv ls w) (hj : w.calls j = some x) (hx : x.phase.over = false) :
    CreatorsInv (ls ++ [.step j w.table (x.go abi w.table).1]) (w.put j (x.go abi w.table)) := by
  have hg := go_ok abi w.table x hx hi.wf (hi.nodup j x hj) (hi.present j x hj) (hi.ok j x hj)
  have hc := go_child abi w.table x
  generalize x.go abi w.table = g at hg hc
  obtain ⟨t', x'⟩ := g
  simp only at hg hc ⊢
  have get : ∀ k y, (w.put j (t', x')).calls k = some y → (k = j ∧ y = x') ∨ (k ≠ j ∧ w.calls k = some y) := by
    intro k y h
    by_cases hk : k = j
    · rw [hk, put_self] at h; cases h; exact .inl ⟨hk, rfl⟩
    · rw [put_other _ _ hk] at h; exact .inr ⟨hk, h⟩
  have hsub := owned_sub_holding x'.phase
  have hnew : ∀ k y, k ≠ j → w.calls k = some y → ∀ fd ∈ x'.phase.owned, fd ∉ y.phase.owned := by
    intro k y hk hy fd hfd hm
    rcases hg.moves.fresh fd (hsub fd hfd) with h | h
    · exact hi.apart j k x y (Ne.symm hk) hj hy fd h hm
    · exact hi.present k y hy fd hm h
  have hkeep : ∀ k y, k ≠ j → w.calls k = some y → ∀ fd ∈ y.phase.owned, t'.get fd = w.table.get fd := by
    intro k y hk hy fd hfd
    exact hg.moves.keep fd (hi.present k y hy fd hfd) (fun hc => hi.apart k j y x hk hy hj fd hfd hc)
  refine ⟨hg.moves.wf, ?_, ?_, ?_, ?_, ?_, ?_, ?_, ?_, ?_⟩
  · intro k y h
    rcases get k y h with ⟨_, rfl⟩ | ⟨_, h⟩
    · exact owned_nodup_of_holding hg.moves.nodup
    · exact hi.nodup k y h
  · intro a b y z hab hy hz fd hfd
    rcases get a y hy with ⟨ha, rfl⟩ | ⟨ha, hy⟩
    · rcases get b z hz with ⟨hb, rfl⟩ | ⟨hb, hz⟩
      · exact absurd (ha.trans hb.symm) hab
      · exact hnew b z hb hz fd hfd
    · rcases get b z hz with ⟨hb, hz'⟩ | ⟨hb, hz⟩
      · rw [hz']
        exact fun hc => hnew a y ha hy fd hc hfd
      · exact hi.apart a b y z hab hy hz fd hfd
  · intro k y h fd hfd
    show t'.get fd ≠ none
    rcases get k y h with ⟨_, rfl⟩ | ⟨hk, h⟩
    · exact hg.moves.present fd (hsub fd hfd)
    · rw [hkeep k y hk h fd hfd]
      exact hi.present k y h fd hfd
  · intro k y h
    show PhaseOk t' y
    rcases get k y h with ⟨_, rfl⟩ | ⟨hk, h⟩
    · exact hg.ok
    · exact (hi.ok k y h).congr (hkeep k y hk h)
  · intro k c p caps os before hm
    have hm' : .made k c p caps os before ∈ ls := by
      rcases List.mem_append.1 hm with hm | hm
      · exact hm
      · rw [List.mem_singleton] at hm; cases hm
    obtain ⟨y, h1, h2, h3, h4, h5, h6, h7⟩ := hi.made k c p caps os before hm'
    have hbor : y.phase.over = false → ∀ fd, Declared p c fd → t'.get fd = before.get fd ∧ t'.get fd ≠ none ∧
        ∀ k' z, (w.put j (t', x')).calls k' = some z → fd ∉ z.phase.owned := by
      intro ho fd hfd
      obtain ⟨g1, g2, g3⟩ := h6 ho fd hfd
      have e := hg.moves.keep fd g2 (g3 j x hj)
      refine ⟨e.trans g1, by rw [e]; exact g2, fun k' z hz hm => ?_⟩
      rcases get k' z hz with ⟨_, rfl⟩ | ⟨_, hz⟩
      · rcases hg.moves.fresh fd (hsub fd hm) with h | h
        · exact g3 j x hj h
        · exact g2 h
      · exact g3 k' z hz hm
    by_cases hk : k = j
    · subst hk
      have hxy : y = x := by rw [hj] at h1; cases h1; rfl
      subst hxy
      refine ⟨x', put_self _ _ _, hg.config.trans h2, hg.policy.trans h3, hg.caps.trans h4,
        hg.os.trans h5, fun _ => hbor hx, ?_⟩
      intro ch img hch hs
      rw [hg.os, hg.config, hg.policy]
      rcases hc ch hch with h | ⟨e, p1, c1, q, hph, hend⟩
      · exact h7 ch img h hs
      · have hok := hi.ok k y hj
        have hnd := hi.nodup k y hj
        have hown : y.phase.owned = [q.wr, q.rd, e.theirs, e.mine] := by rw [hph]; rfl
        unfold PhaseOk at hok
        rw [hph] at hok
        obtain ⟨o1, o2, o3, o4⟩ := hok
        rw [hown] at hnd
        simp only [List.nodup_cons, List.mem_cons, List.not_mem_nil, or_false, not_or] at hnd
        refine clone_started hi.wf o1 o2 o3 o4 ?_ (Ne.symm hnd.1.2.1) img (hend.symm.trans hs)
        intro fd hfd
        rw [h2, h3] at hfd
        obtain ⟨g1, g2, g3⟩ := h6 hx fd hfd
        have g4 := g3 k y hj
        rw [hown] at g4
        simp only [List.mem_cons, List.not_mem_nil, or_false, not_or] at g4
        exact ⟨g1, g4.2.2.1, g4.1⟩
    · exact ⟨y, by rw [put_other _ _ hk]; exact h1, h2, h3, h4, h5, hbor, h7⟩
  · intro k y h fd hfd
    rw [holds_step]
    rcases get k y h with ⟨hk, rfl⟩ | ⟨hk, h⟩
    · rw [if_pos hk.symm]
      refine ⟨hg.moves.present fd hfd, ?_⟩
      rcases hg.moves.fresh fd hfd with h' | h'
      · exact .inl (hk ▸ hi.holds j x hj fd (owned_sub_holding _ fd h'))
      · exact .inr h'
    · rw [if_neg (Ne.symm hk)]
      exact hi.holds k y h fd hfd
  · intro k y h hn fd hfd
    rw [holds_step] at hfd
    rcases get k y h with ⟨hk, rfl⟩ | ⟨hk, h⟩
    · rw [if_pos hk.symm] at hfd
      rw [hg.os] at hn
      rcases hfd.2 with h' | h'
      · have := hi.only j x hj hn fd (hk ▸ h')
        rw [holding_of_not_over hx] at this
        exact hg.drops hn fd this hfd.1
      · exact hg.moves.gain fd h' hfd.1
    · rw [if_neg (Ne.symm hk)] at hfd
      exact hi.only k y h hn fd hfd
  · intro k h fd
    by_cases hk : k = j
    · rw [hk, put_self] at h; cases h
    · rw [put_other _ _ hk] at h
      rw [holds_step, if_neg (Ne.symm hk)]
      exact hi.idle k h fd
  · intro l1 l2 k b a h fd hb ha
    rcases snoc_split h with ⟨_, h1, h2⟩ | ⟨l3, h⟩
    · cases h2
      rw [h1]
      apply Classical.byContradiction
      intro hno
      refine ha (hg.moves.keep fd hb fun hm => hno ?_)
      exact hi.holds j x hj fd (owned_sub_holding _ fd hm)
    · exact hi.own l1 l3 k b a h fd hb ha

theorem inv_other {ls : List CreateEvent} {w : Creators} {t : FdTable} (hi : CreatorsInv ls w)
    (hn : (t.map Prod.fst).Nodup)
    (ho : ∀ j x, w.calls j = some x → ∀ fd ∈ x.phase.owned, t.get fd = w.table.get fd)
    (hb : ∀ j x, w.calls j = some x → x.phase.over = false →
      ∀ fd, Declared x.policy x.config fd → t.get fd = w.table.get fd) :
    CreatorsInv ls { w with table := t } := by
  refine ⟨hn, hi.nodup, hi.apart, ?_, ?_, ?_, hi.holds, hi.only, hi.idle, hi.own⟩
  · intro j x h fd hfd
    show t.get fd ≠ none
    rw [ho j x h fd hfd]
    exact hi.present j x h fd hfd
  · intro j x h
    exact (hi.ok j x h).congr (ho j x h)
  · intro j c p caps os before hm
    obtain ⟨x, h1, h2, h3, h4, h5, h6, h7⟩ := hi.made j c p caps os before hm
    refine ⟨x, h1, h2, h3, h4, h5, ?_, h7⟩
    intro hov fd hfd
    obtain ⟨g1, g2, g3⟩ := h6 hov fd hfd
    have e := hb j x h1 hov fd (by rw [h2, h3]; exact hfd)
    exact ⟨e.trans g1, by rw [show ({ w with table := t } : Creators).table = t from rfl, e]; exact g2, g3⟩

theorem exec_creators_inv {abi : Abi} {w w' : Creators} {ls : List CreateEvent} (h : NoCalls w)
    (he : CreatorsExec abi Declared w ls w') : CreatorsInv ls w' := by
  induction he with
  | start =>
    refine ⟨h.nodup, ?_, ?_, ?_, ?_, ?_, ?_, ?_, ?_, ?_⟩
    · intro j x hj; rw [h.calls] at hj; cases hj
    · intro j k x y _ hj; rw [h.calls] at hj; cases hj
    · intro j x hj; rw [h.calls] at hj; cases hj
    · intro j x hj; rw [h.calls] at hj; cases hj
    · intro j c p caps os before hm; cases hm
    · intro j x hj; rw [h.calls] at hj; cases hj
    · intro j x hj; rw [h.calls] at hj; cases hj
    · intro j _ fd hf; exact hf
    · intro l1 l2 j b a hl
      cases l1 <;> cases hl
  | call ls w1 j c p caps os _ hj hb ih => exact inv_call ih hj hb
  | go ls w1 j x _ hj hx ih => exact inv_go ih hj hx
  | other ls w1 t _ hn ho hb ih => exact inv_other ih hn ho hb

/-! ## The theorems -/

/-- C129. Whatever the other threads of the broker do meanwhile, including creating other workers,
a worker program that has been started has, above the standard streams, its end of its own channel
and the descriptors its creator declared that were inheritable, and nothing else. -/
theorem C129_descriptors (abi : Abi) (w w' : Creators) (ls : List CreateEvent) (h : NoCalls w)
    (he : CreatorsExec abi Declared w ls w') (j : Nat) (c : ProcessConfig) (p : Policy) (caps : Caps) (os : NewOs)
    (before : FdTable) (hm : .made j c p caps os before ∈ ls) (x : Creation) (hx : w'.calls j = some x)
    (ch : Child) (img : Image) (hc : x.child = some ch) (hs : ch.ending = .started img) :
    ∃ a b, os.socketpair = .ok (a, b) ∧ StartedRight before c p b img := by
  obtain ⟨y, h1, rfl, rfl, _, rfl, _, h7⟩ := (exec_creators_inv h he).made j c p caps os before hm
  rw [hx] at h1
  cases h1
  exact (h7 ch img hc hs).1

/-- C129. Its standard streams are those configured, as far as C40 holds. Missing: the same as
for `C40_streams_partial`. -/
theorem C129_streams_partial (abi : Abi) (w w' : Creators) (ls : List CreateEvent) (h : NoCalls w)
    (he : CreatorsExec abi Declared w ls w') (j : Nat) (c : ProcessConfig) (p : Policy) (caps : Caps) (os : NewOs)
    (before : FdTable) (hm : .made j c p caps os before ∈ ls) (x : Creation) (hx : w'.calls j = some x)
    (ch : Child) (img : Image) (hc : x.child = some ch) (hs : ch.ending = .started img) :
    StreamIs before img 0 c.stdin ∧ (c.stdout ≠ some 0 → StreamIs before img 1 c.stdout) ∧
    (c.stderr ≠ some 0 → c.stderr ≠ some 1 → StreamIs before img 2 c.stderr) := by
  obtain ⟨y, h1, rfl, rfl, _, rfl, _, h7⟩ := (exec_creators_inv h he).made j c p caps os before hm
  rw [hx] at h1
  cases h1
  exact (h7 ch img hc hs).2

/-- C129. A system call of a creation changes or closes no descriptor but those this creation has
opened. -/
theorem C129_own_only (abi : Abi) (w w' : Creators) (l1 l2 : List CreateEvent) (j : Nat) (before after : FdTable)
    (h : NoCalls w) (he : CreatorsExec abi Declared w (l1 ++ .step j before after :: l2) w') (fd : Nat)
    (hb : before.get fd ≠ none) (ha : after.get fd ≠ before.get fd) : HoldsFd j l1 fd :=
  (exec_creators_inv h he).own l1 l2 j before after rfl fd hb ha

/-- C129. A creation that has failed has closed every descriptor it had opened. Missing: a
first message that comes with several files (`hn`), all but one of which stay open (`C75_violated`). -/
theorem C129_failed_partial (abi : Abi) (w w' : Creators) (ls : List CreateEvent) (h : NoCalls w)
    (he : CreatorsExec abi Declared w ls w') (j : Nat) (x : Creation) (hx : w'.calls j = some x)
    (hn : ∀ d, x.os.first = .datagram d → d.files.length ≤ 1) (err : BrokerError)
    (hf : x.phase = .failed err) (fd : Nat) : ¬ HoldsFd j ls fd := by
  intro hh
  have : nfiles x.os ≤ 1 := by
    unfold nfiles
    split
    · rename_i d e; exact hn d e
    · exact Nat.zero_le _
  have := (exec_creators_inv h he).only j x hx this fd hh
  rw [hf] at this
  cases this

/-- C129. A creation that has succeeded has closed every descriptor it had opened, except one.
Missing: as for `C129_failed_partial`. -/
theorem C129_served_partial (abi : Abi) (w w' : Creators) (ls : List CreateEvent) (h : NoCalls w)
    (he : CreatorsExec abi Declared w ls w') (j : Nat) (x : Creation) (hx : w'.calls j = some x)
    (hn : ∀ d, x.os.first = .datagram d → d.files.length ≤ 1) (mine pid : Nat)
    (hf : x.phase = .served mine pid) (fd : Nat) : HoldsFd j ls fd ↔ fd = mine := by
  have hl : nfiles x.os ≤ 1 := by
    unfold nfiles
    split
    · rename_i d e; exact hn d e
    · exact Nat.zero_le _
  have hi := exec_creators_inv h he
  constructor
  · intro hh
    have := hi.only j x hx hl fd hh
    rw [hf] at this
    exact List.mem_singleton.1 this
  · rintro rfl
    exact hi.holds j x hx fd (by rw [hf]; exact List.mem_singleton.2 rfl)

/-- C129. When a creation succeeds, the descriptor it leaves is, at that moment, the broker's end of
its own channel, and the worker is the process it has created. -/
theorem C129_channel (abi : Abi) (w w' : Creators) (ls : List CreateEvent) (h : NoCalls w)
    (he : CreatorsExec abi Declared w ls w') (j : Nat) (x : Creation) (hx : w'.calls j = some x)
    (ho : x.phase.over = false) (mine pid : Nat) (hs : (x.go abi w'.table).2.phase = .served mine pid) :
    (∃ a b, x.os.socketpair = .ok (a, b) ∧ (x.go abi w'.table).1.get mine = some ⟨a, 0#32⟩) ∧
    ∃ ch, (x.go abi w'.table).2.child = some ch ∧ ch.pid = pid := by
  have hi := exec_creators_inv h he
  have hok := hi.ok j x hx
  have hg := go_ok abi w'.table x ho hi.wf (hi.nodup j x hx) (hi.present j x hx) hok
  have hpid := hg.ok
  unfold PhaseOk at hpid
  rw [hs] at hpid
  refine ⟨?_, hpid⟩
  have nofail : ∀ err l, CreatePhase.fail err l ≠ .served mine pid := by
    intro err l; cases l <;> simp [CreatePhase.fail]
  obtain ⟨c, p, caps, os, ph, chd⟩ := x
  cases ph with
  | spawning m p1 pid' =>
    simp only [Creation.go] at hs ⊢
    cases hsp : os.spawnOk with
    | false => rw [hsp] at hs; first | (cases hs; done) | exact (nofail _ _ hs).elim
    | true =>
      rw [hsp] at hs
      cases hs
      exact hok.1
  | begin => simp only [Creation.go] at hs; split at hs <;> cases hs
  | paired e =>
    simp only [Creation.go] at hs
    split at hs
    · first | (cases hs; done) | exact (nofail _ _ hs).elim
    · cases hs
  | marking e f =>
    simp only [Creation.go] at hs
    split at hs
    · first | (cases hs; done) | exact (nofail _ _ hs).elim
    · cases hs
  | checking e p1 l =>
    cases l with
    | nil =>
      simp only [Creation.go, afterChecks] at hs
      split at hs
      · first | (cases hs; done) | exact (nofail _ _ hs).elim
      · split at hs
        · first | (cases hs; done) | exact (nofail _ _ hs).elim
        · cases hs
    | cons fd l =>
      simp only [Creation.go] at hs
      split at hs
      · first | (cases hs; done) | exact (nofail _ _ hs).elim
      · cases hs
  | piping e p1 c1 =>
    simp only [Creation.go] at hs
    split at hs
    · first | (cases hs; done) | exact (nofail _ _ hs).elim
    · cases hs
  | piped e p1 c1 q =>
    simp only [Creation.go] at hs
    split at hs
    · first | (cases hs; done) | exact (nofail _ _ hs).elim
    · cases hs
  | sealing e p1 c1 q f =>
    simp only [Creation.go] at hs
    split at hs
    · first | (cases hs; done) | exact (nofail _ _ hs).elim
    · cases hs
  | cloning e p1 c1 q =>
    simp only [Creation.go] at hs
    split at hs
    · first | (cases hs; done) | exact (nofail _ _ hs).elim
    · cases hs
  | cloned e p1 q ch => cases hs
  | reading e p1 q ch => cases hs
  | read e p1 rd r =>
    cases r with
    | error err => first | (cases hs; done) | exact (nofail _ _ hs).elim
    | ok pid => cases hs
  | handing e p1 pid => cases hs
  | greeting m p1 pid => cases hs
  | greeted m p1 pid r =>
    cases r with
    | error err => first | (cases hs; done) | exact (nofail _ _ hs).elim
    | ok r =>
      simp only [Creation.go] at hs
      unfold afterGreeting at hs
      split at hs
      · cases hs
      · first | (cases hs; done) | exact (nofail _ _ hs).elim
      · first | (cases hs; done) | exact (nofail _ _ hs).elim
      · first | (cases hs; done) | exact (nofail _ _ hs).elim
  | answering m p1 pid =>
    simp only [Creation.go] at hs
    split at hs
    · first | (cases hs; done) | exact (nofail _ _ hs).elim
    · cases hs
  | failing err l =>
    cases l with
    | nil => cases hs
    | cons fd l => first | (cases hs; done) | exact (nofail _ _ hs).elim
  | failed err => cases ho
  | served m pid => cases ho

/-! ## A call that is not interrupted -/

/-- The system calls of one call, with nothing between them. -/
inductive Alone (abi : Abi) : FdTable × Creation → FdTable × Creation → Prop
  | done (s : FdTable × Creation) : Alone abi s s
  | next (t : FdTable) (x : Creation) (s : FdTable × Creation) (h : x.phase.over = false)
    (hs : Alone abi (x.go abi t) s) : Alone abi (t, x) s

theorem Alone.trans {abi : Abi} {a b c : FdTable × Creation} (h : Alone abi a b) (h' : Alone abi b c) :
    Alone abi a c := by
  induction h with
  | done _ => exact h'
  | next t x s hx _ ih => exact .next t x c hx (ih h')

/-- Closing everything that is left. -/
theorem alone_fail (abi : Abi) (c : ProcessConfig) (p : Policy) (caps : Caps) (os : NewOs) (chd : Option Child)
    (err : BrokerError) (l : List Nat) : ∀ t : FdTable,
    Alone abi (t, ⟨c, p, caps, os, .fail err l, chd⟩)
      (l.foldl FdTable.erase t, ⟨c, p, caps, os, .failed err, chd⟩) := by
  induction l with
  | nil => exact fun t => .done _
  | cons fd l ih =>
    intro t
    refine .next _ _ _ rfl ?_
    exact ih (t.erase fd)

/-- The checks of the descriptors to be inherited. -/
theorem alone_checks (abi : Abi) (c : ProcessConfig) (p : Policy) (caps : Caps) (os : NewOs) (chd : Option Child)
    (e : ChanEnds) (t : FdTable) (left : List Nat) : ∀ p1 : Policy,
    Alone abi (t, ⟨c, p, caps, os, .checking e p1 left, chd⟩)
      (match allowHandles t p1 left with
        | .error err => ((t.erase e.theirs).erase e.mine, ⟨c, p, caps, os, .failed err, chd⟩)
        | .ok p2 => (t, ⟨c, p, caps, os, .checking e p2 [], chd⟩)) := by
  induction left with
  | nil => exact fun p1 => .done _
  | cons fd left ih =>
    intro p1
    refine .next _ _ _ rfl ?_
    simp only [Creation.go, allowHandles]
    cases allowHandle t p1 fd with
    | error err => exact alone_fail abi c p caps os chd err [e.theirs, e.mine] t
    | ok p2 => exact ih p2

/-- The handshake. -/
theorem alone_handshake (abi : Abi) (c : ProcessConfig) (p : Policy) (caps : Caps) (os : NewOs) (chd : Option Child)
    (m : Nat) (p1 : Policy) (pid : Nat) (t : FdTable) :
    Alone abi (t, ⟨c, p, caps, os, .greeting m p1 pid, chd⟩)
      (match startIpcLoop abi p1 t m os.first os.osFirst os.filter os.spawnOk with
        | (.error err, t, _) => (t, ⟨c, p, caps, os, .failed err, chd⟩)
        | (.ok s, t, _) => (t, ⟨c, p, caps, os, .served s.chan pid, chd⟩)) := by
  refine .next _ _ _ rfl ?_
  simp only [Creation.go]
  have key : ∀ (t' : FdTable) (r : RecvMsg),
      channelRecv abi decRequest IPC_MESSAGE_MAX_SIZE os.osFirst.canInstall t os.first = recvFinish decRequest t' r →
      Alone abi (t', ⟨c, p, caps, os, .greeted m p1 pid (.ok r), chd⟩)
      (match startIpcLoop abi p1 t m os.first os.osFirst os.filter os.spawnOk with
        | (.error err, t, _) => (t, ⟨c, p, caps, os, .failed err, chd⟩)
        | (.ok s, t, _) => (t, ⟨c, p, caps, os, .served s.chan pid, chd⟩)) := by
    intro t' r he
    refine .next _ _ _ rfl ?_
    simp only [Creation.go, startIpcLoop, he]
    generalize recvFinish decRequest t' r = y
    obtain ⟨t2, res⟩ := y
    have unexp : ∀ h : Option Nat, Alone abi
        (t2, ⟨c, p, caps, os, .fail .unexpectedWorkerMessage (h.toList ++ [m]), chd⟩)
        ((dropHandle t2 h).erase m, ⟨c, p, caps, os, .failed .unexpectedWorkerMessage, chd⟩) := by
      intro h
      cases h with
      | none => exact alone_fail abi c p caps os chd _ [m] t2
      | some fd => exact alone_fail abi c p caps os chd _ [fd, m] t2
    cases res with
    | error err => exact alone_fail abi c p caps os chd _ [m] t2
    | ok o =>
      cases o with
      | none => exact alone_fail abi c p caps os chd _ [m] t2
      | some z =>
        obtain ⟨q, h⟩ := z
        cases q with
        | openFile path flags => exact unexp h
        | syscall nb args ip => exact unexp h
        | initialization =>
          cases h with
          | some fd => exact unexp (some fd)
          | none =>
            refine .next _ _ _ rfl ?_
            simp only [Creation.go, afterGreeting]
            cases channelSend abi t2 (sendResponse (.initialization p1 (os.filter.getD []))) none
                os.osFirst.sendError with
            | error err => exact alone_fail abi c p caps os chd _ [m] t2
            | ok d =>
              refine .next _ _ _ rfl ?_
              simp only [Creation.go]
              cases os.spawnOk with
              | true => exact .done _
              | false => exact alone_fail abi c p caps os chd _ [m] t2
  cases hf : os.first with
  | error err =>
    refine .next _ _ _ rfl ?_
    simp only [startRecv, Creation.go, startIpcLoop, channelRecv]
    exact alone_fail abi c p caps os chd _ [m] t
  | eof => rw [hf] at key; exact key _ _ rfl
  | datagram d => rw [hf] at key; exact key _ _ rfl

/-- C129. A call that nothing interrupts is the call of Model/Process.lean: it ends with the same
result, the same descriptors and the same process. -/
theorem C129_alone (abi : Abi) (t : FdTable) (caps : Caps) (c : ProcessConfig) (p : Policy) (os : NewOs) :
    Alone abi (t, .make c p caps os)
      ((workerNew abi t caps c p os).table,
       ⟨c, p, caps, os, match (workerNew abi t caps c p os).result with
          | .error e => .failed e
          | .ok (pid, s) => .served s.chan pid, (workerNew abi t caps c p os).child⟩) := by
  refine .next _ _ _ rfl ?_
  simp only [Creation.go, Creation.make]
  unfold workerNew
  cases hs : os.socketpair with
  | error e => exact .done _
  | ok y =>
    obtain ⟨a, b⟩ := y
    simp only
    generalize (t.alloc ⟨a, 0#32⟩).1 = m
    generalize (t.alloc ⟨a, 0#32⟩).2 = t1
    generalize (t1.alloc ⟨b, 0#32⟩).1 = th
    generalize (t1.alloc ⟨b, 0#32⟩).2 = t2
    refine .next _ _ _ rfl ?_
    simp only [Creation.go, setInheritable]
    cases sysGetFd t2 th with
    | error e => exact alone_fail abi c p caps os none _ [th, m] t2
    | ok f =>
      simp only
      refine .next _ _ _ rfl ?_
      simp only [Creation.go, if_true]
      cases sysSetFd t2 th ((f &&& ~~~FD_CLOEXEC) ||| 0#32) with
      | error e => exact alone_fail abi c p caps os none _ [th, m] t2
      | ok t3 =>
        simp only
        refine (alone_checks abi c p caps os none ⟨m, th⟩ t3 _ p).trans ?_
        simp only [prepareWorker, allowHandles]
        cases allowHandle t3 p th with
        | error e => exact .done _
        | ok p1 =>
          simp only
          cases allowHandles t3 p1 ([c.stdin, c.stdout, c.stderr].filterMap id) with
          | error e => exact .done _
          | ok p2 =>
            simp only
            refine .next _ _ _ rfl ?_
            simp only [Creation.go, afterChecks]
            generalize c.setEnv (ipcHandleVar th) = r
            obtain ⟨r, c'⟩ := r
            cases r with
            | error e => exact alone_fail abi c p caps os none _ [th, m] t3
            | ok u =>
              simp only [newProcess]
              by_cases ha : c'.argv = []
              · simp only [if_pos ha]
                exact alone_fail abi c p caps os none _ [th, m] t3
              · simp only [if_neg ha]
                refine .next _ _ _ rfl ?_
                simp only [Creation.go]
                cases os.proc.pipe with
                | error e => exact alone_fail abi c p caps os none _ [th, m] t3
                | ok y =>
                  obtain ⟨rf, w⟩ := y
                  simp only
                  generalize (t3.alloc ⟨rf, 0#32⟩).1 = rd
                  generalize (t3.alloc ⟨rf, 0#32⟩).2 = t4
                  generalize (t4.alloc ⟨w, 0#32⟩).1 = wr
                  generalize (t4.alloc ⟨w, 0#32⟩).2 = t5
                  refine .next _ _ _ rfl ?_
                  simp only [Creation.go, setInheritable]
                  cases sysGetFd t5 wr with
                  | error e => exact alone_fail abi c p caps os none _ [wr, rd, th, m] t5
                  | ok f =>
                    simp only
                    refine .next _ _ _ rfl ?_
                    simp only [Creation.go, Bool.false_eq_true, if_false]
                    cases sysSetFd t5 wr ((f &&& ~~~FD_CLOEXEC) ||| FD_CLOEXEC) with
                    | error e => exact alone_fail abi c p caps os none _ [wr, rd, th, m] t5
                    | ok t6 =>
                      simp only
                      refine .next _ _ _ rfl ?_
                      simp only [Creation.go]
                      cases tryClone os.proc with
                      | error e => exact alone_fail abi c p caps os none _ [wr, rd, th, m] t6
                      | ok z =>
                        obtain ⟨pid, ns, pidNs⟩ := z
                        simp only
                        generalize cloneEntrypoint os.proc.entry (entryParams p2 c' os.proc wr) t6 caps = ending
                        refine .next _ _ _ rfl (.next _ _ _ rfl (.next _ _ _ rfl ?_))
                        simp only [Creation.go]
                        cases readErrno os.proc w pid ending with
                        | error e =>
                          exact alone_fail abi c p caps os _ _ [th, m] _
                        | ok pid' =>
                          refine .next _ _ _ rfl ?_
                          refine (alone_handshake abi c p caps os _ m p2.runtime pid' _).trans ?_
                          simp only
                          generalize startIpcLoop abi p2.runtime (((t6.erase wr).erase rd).erase th) m os.first
                            os.osFirst os.filter os.spawnOk = z
                          obtain ⟨res, t7, acts⟩ := z
                          cases res <;> exact .done _

/-! ## A call returns -/

/-- How many system calls are left, at most. -/
def CreatePhase.rank : CreatePhase → Nat
  | .begin => 22
  | .paired _ => 21
  | .marking _ _ => 20
  | .checking _ _ left => 15 + left.length
  | .piping _ _ _ => 14
  | .piped _ _ _ _ => 13
  | .sealing _ _ _ _ _ => 12
  | .cloning _ _ _ _ => 11
  | .cloned _ _ _ _ => 10
  | .reading _ _ _ _ => 9
  | .read _ _ _ _ => 8
  | .handing _ _ _ => 7
  | .greeting _ _ _ => 6
  | .greeted _ _ _ _ => 5
  | .answering _ _ _ => 4
  | .spawning _ _ _ => 3
  | .failing _ left => left.length + 1
  | .failed _ => 0
  | .served _ _ => 0

theorem fail_rank (err : BrokerError) (l : List Nat) : (CreatePhase.fail err l).rank ≤ l.length + 1 := by
  cases l <;> simp [CreatePhase.fail, CreatePhase.rank]

theorem streams_length (a b c : Option Nat) : ([a, b, c].filterMap id).length ≤ 3 := by
  cases a <;> cases b <;> cases c <;> simp

theorem go_rank (abi : Abi) (t : FdTable) (x : Creation) (h : x.phase.over = false) :
    (x.go abi t).2.phase.rank < x.phase.rank := by
  obtain ⟨c, p, caps, os, ph, chd⟩ := x
  cases ph with
  | begin => simp only [Creation.go]; split <;> exact Nat.le_of_ble_eq_true rfl
  | paired e => simp only [Creation.go]; split <;> exact Nat.le_of_ble_eq_true rfl
  | marking e f =>
    simp only [Creation.go]
    have := streams_length c.stdin c.stdout c.stderr
    split
    · exact Nat.le_of_ble_eq_true rfl
    · show 15 + (_ + 1) < 20; omega
  | checking e p1 l =>
    cases l with
    | nil =>
      simp only [Creation.go, afterChecks]
      split
      · exact Nat.le_of_ble_eq_true rfl
      · split <;> exact Nat.le_of_ble_eq_true rfl
    | cons fd l =>
      simp only [Creation.go]
      split <;> (show _ < 15 + (l.length + 1); first | (show 3 < _; omega) | (show 15 + l.length < _; omega))
  | piping e p1 c1 => simp only [Creation.go]; split <;> exact Nat.le_of_ble_eq_true rfl
  | piped e p1 c1 q => simp only [Creation.go]; split <;> exact Nat.le_of_ble_eq_true rfl
  | sealing e p1 c1 q f => simp only [Creation.go]; split <;> exact Nat.le_of_ble_eq_true rfl
  | cloning e p1 c1 q => simp only [Creation.go]; split <;> exact Nat.le_of_ble_eq_true rfl
  | cloned e p1 q ch => exact Nat.le_of_ble_eq_true rfl
  | reading e p1 q ch => exact Nat.le_of_ble_eq_true rfl
  | read e p1 rd r => cases r <;> exact Nat.le_of_ble_eq_true rfl
  | handing e p1 pid => exact Nat.le_of_ble_eq_true rfl
  | greeting m p1 pid => exact Nat.le_of_ble_eq_true rfl
  | greeted m p1 pid r =>
    cases r with
    | error err => exact Nat.le_of_ble_eq_true rfl
    | ok r =>
      simp only [Creation.go]
      unfold afterGreeting
      split
      · exact Nat.le_of_ble_eq_true rfl
      · rename_i hd _ _
        cases hd <;> exact Nat.le_of_ble_eq_true rfl
      · exact Nat.le_of_ble_eq_true rfl
      · exact Nat.le_of_ble_eq_true rfl
  | answering m p1 pid => simp only [Creation.go]; split <;> exact Nat.le_of_ble_eq_true rfl
  | spawning m p1 pid => simp only [Creation.go]; cases os.spawnOk <;> exact Nat.le_of_ble_eq_true rfl
  | failing err l =>
    cases l with
    | nil => exact Nat.le_of_ble_eq_true rfl
    | cons fd l =>
      have := fail_rank err l
      show (CreatePhase.fail err l).rank < l.length + 1 + 1
      omega
  | failed err => cases h
  | served m pid => cases h

/-- The system calls made by call `j`. -/
def Spec.systemCalls (j : Nat) (ls : List CreateEvent) : Nat :=
  (ls.filter fun l => match l with
    | .step k _ _ => k == j
    | .made _ _ _ _ _ _ => false).length

theorem systemCalls_snoc (j : Nat) (ls : List CreateEvent) (l : CreateEvent) :
    systemCalls j (ls ++ [l]) = systemCalls j ls + systemCalls j [l] := by
  simp only [systemCalls, List.filter_append, List.length_append]

/-- C129. However the calls interleave, each returns after at most 22 system calls of its own. -/
theorem C129_returns (abi : Abi) (w w' : Creators) (ls : List CreateEvent) (h : NoCalls w)
    (he : CreatorsExec abi Declared w ls w') (j : Nat) : systemCalls j ls ≤ 22 ∧
      ∀ x, w'.calls j = some x → systemCalls j ls = 22 → x.phase.over = true := by
  have key : (w'.calls j = none → systemCalls j ls = 0) ∧
      ∀ x, w'.calls j = some x → systemCalls j ls + x.phase.rank ≤ 22 := by
    induction he with
    | start => exact ⟨fun _ => rfl, fun x hx => by rw [h.calls] at hx; cases hx⟩
    | call ls w1 k c p caps os _ hk hb ih =>
      have e : systemCalls j (ls ++ [.made k c p caps os w1.table]) = systemCalls j ls := by
        rw [systemCalls_snoc]; rfl
      rw [e]
      by_cases hj : j = k
      · subst hj
        refine ⟨fun hn => (by rw [put_self] at hn; cases hn), fun x hx => ?_⟩
        rw [put_self] at hx
        cases hx
        rw [ih.1 hk]
        exact Nat.le_refl 22
      · rw [put_other _ _ hj]; exact ih
    | go ls w1 k x _ hk hx ih =>
      rw [systemCalls_snoc]
      by_cases hj : j = k
      · subst hj
        refine ⟨fun hn => (by rw [put_self] at hn; cases hn), fun y hy => ?_⟩
        rw [put_self] at hy
        cases hy
        have h1 := ih.2 x hk
        have h2 := go_rank abi w1.table x hx
        have h3 : systemCalls j [.step j w1.table (x.go abi w1.table).1] = 1 := by simp [systemCalls]
        omega
      · have h3 : systemCalls j [.step k w1.table (x.go abi w1.table).1] = 0 := by
          have : ¬ k = j := Ne.symm hj
          simp [systemCalls, this]
        rw [put_other _ _ hj, h3]
        exact ih
    | other ls w1 t _ _ _ _ ih => exact ih
  constructor
  · cases hc : w'.calls j with
    | none => rw [key.1 hc]; exact Nat.zero_le _
    | some x => have := key.2 x hc; omega
  · intro x hx h22
    have := key.2 x hx
    have h0 : x.phase.rank = 0 := by omega
    generalize x.phase = ph at h0
    cases ph <;> first | rfl | simp [CreatePhase.rank] at h0

/-! ## Two workers created at once -/

/-- Thread `j` makes its next system call. -/
def Creators.turn (abi : Abi) (s : List CreateEvent × Creators) (j : Nat) : List CreateEvent × Creators :=
  match s.2.calls j with
  | none => s
  | some x =>
    if x.phase.over then s
    else (s.1 ++ [.step j s.2.table (x.go abi s.2.table).1], s.2.put j (x.go abi s.2.table))

theorem turns_exec {abi : Abi} {w : Creators} (l : List Nat) : ∀ (s : List CreateEvent × Creators),
    CreatorsExec abi Declared w s.1 s.2 →
    CreatorsExec abi Declared w (l.foldl (Creators.turn abi) s).1 (l.foldl (Creators.turn abi) s).2 := by
  induction l with
  | nil => exact fun s h => h
  | cons j l ih =>
    intro s h
    apply ih
    unfold Creators.turn
    split
    · exact h
    · rename_i x hx
      split
      · exact h
      · rename_i ho
        exact .go _ _ j x h hx (by simpa using ho)

/-- Another worker, with another channel and pipe. -/
def otherOs : NewOs :=
  { goodOs with socketpair := .ok (52, 53), proc := { goodOs.proc with pipe := .ok (62, 63), clone2 := .ok 4322 } }

def otherConfig : ProcessConfig :=
  (ProcessConfig.new (utf8 c!"/bin/y") [utf8 c!"y"]).calls [.stdin (some 7)]

/-- Two calls have been made, and have got a channel each; the first has its pipe, which is not
yet marked close-on-exec. -/
def twoCalls : List CreateEvent × Creators :=
  ([.made 0 someConfig tmpPolicy fullCaps goodOs brokerTable, .made 1 otherConfig tmpPolicy fullCaps otherOs brokerTable],
   (Creators.put (Creators.put ⟨brokerTable, fun _ => none⟩ 0 (brokerTable, .make someConfig tmpPolicy fullCaps goodOs)) 1
     (brokerTable, .make otherConfig tmpPolicy fullCaps otherOs)))

/-- The order of the system calls: the second call clones its process while the first's pipe and
both ends of its channel are open and inheritable. -/
def schedule : List Nat :=
  [0, 1, 0, 0, 0, 0, 0, 1, 1, 1, 1, 1, 0, 1, 1, 1, 1, 0, 0, 0, 1, 0, 0, 1, 0, 0, 0, 1, 1, 0, 1, 1, 1, 0, 0, 0, 1, 1]

theorem declared_open (c : ProcessConfig) (h : c = someConfig ∨ c = otherConfig) (fd : Nat)
    (hd : Declared tmpPolicy c fd) : fd = 3 ∨ fd = 7 := by
  have h1 : tmpPolicy.inheritedHandles = [] := by decide
  rcases h with rfl | rfl
  · have h2 : someConfig.stdin = none ∧ someConfig.stdout = some 3 ∧ someConfig.stderr = none := by decide
    simp only [Declared, h1, h2.1, h2.2.1, h2.2.2, List.not_mem_nil, reduceCtorEq, Option.some.injEq, false_or,
      or_false] at hd
    exact .inl hd.symm
  · have h2 : otherConfig.stdin = some 7 ∧ otherConfig.stdout = none ∧ otherConfig.stderr = none := by decide
    simp only [Declared, h1, h2.1, h2.2.1, h2.2.2, List.not_mem_nil, reduceCtorEq, Option.some.injEq, false_or,
      or_false] at hd
    exact .inr hd.symm

theorem twoCalls_exec : CreatorsExec .lp64 Declared ⟨brokerTable, fun _ => none⟩ twoCalls.1 twoCalls.2 := by
  have open37 : ∀ fd, fd = 3 ∨ fd = 7 → brokerTable.get fd ≠ none := by
    rintro fd (rfl | rfl) <;> decide
  have h0 : CreatorsExec .lp64 Declared ⟨brokerTable, fun _ => none⟩
      [.made 0 someConfig tmpPolicy fullCaps goodOs brokerTable]
      (Creators.put ⟨brokerTable, fun _ => none⟩ 0 (brokerTable, .make someConfig tmpPolicy fullCaps goodOs)) :=
    .call [] ⟨brokerTable, fun _ => none⟩ 0 someConfig tmpPolicy fullCaps goodOs .start rfl fun fd hd =>
      ⟨open37 fd (declared_open _ (.inl rfl) fd hd), fun k x hx => by cases hx⟩
  refine .call _ _ 1 otherConfig tmpPolicy fullCaps otherOs h0 rfl fun fd hd =>
      ⟨open37 fd (declared_open _ (.inr rfl) fd hd), fun k x hx => ?_⟩
  by_cases hk : k = 0
  · rw [hk, put_self] at hx
    cases hx
    intro hc; cases hc
  · rw [put_other _ _ hk] at hx
    cases hx

/-- The execution meets the hypotheses of the theorems, -/
example : NoCalls ⟨brokerTable, fun _ => none⟩ ∧
    CreatorsExec .lp64 Declared ⟨brokerTable, fun _ => none⟩
      (schedule.foldl (Creators.turn .lp64) twoCalls).1 (schedule.foldl (Creators.turn .lp64) twoCalls).2 :=
  ⟨⟨fun _ => rfl, brokerTable_real.nodup⟩, turns_exec schedule _ twoCalls_exec⟩

/-- The descriptors of the program started by call `j`. -/
def startedTable (w : Creators) (j : Nat) : Option FdTable :=
  (w.calls j).bind fun x => x.child.bind fun ch => match ch.ending with
    | .started img => some img.table
    | _ => none

/-- both workers are started, the first with descriptors 3 and 6, the second with 7 and 9, -/
example : startedTable (schedule.foldl (Creators.turn .lp64) twoCalls).2 0 =
      some [(2, ⟨82, 0#32⟩), (1, ⟨13, 0#32⟩), (0, ⟨80, 0#32⟩), (6, ⟨51, 0#32⟩), (3, ⟨13, 0#32⟩)] ∧
    startedTable (schedule.foldl (Creators.turn .lp64) twoCalls).2 1 =
      some [(2, ⟨82, 0#32⟩), (1, ⟨81, 0#32⟩), (0, ⟨17, 0#32⟩), (9, ⟨53, 0#32⟩), (7, ⟨17, 0#32⟩)] := by
  decide +kernel

/-- although, when the second process was created, the first call's pipe and channel were open, -/
example : ((schedule.take 14).foldl (Creators.turn .lp64) twoCalls).2.table =
    [(13, ⟨63, 0#32⟩), (12, ⟨62, 0#32⟩), (11, ⟨61, 0#32⟩), (10, ⟨60, 0#32⟩), (9, ⟨53, 0#32⟩), (6, ⟨51, 0#32⟩),
     (8, ⟨52, 0#32⟩), (5, ⟨50, 0#32⟩)] ++ brokerTable := by
  decide +kernel

/-- and the broker is left with its end of each channel. -/
example : (schedule.foldl (Creators.turn .lp64) twoCalls).2.table = [(8, ⟨52, 0#32⟩), (5, ⟨50, 0#32⟩)] ++ brokerTable ∧
    ((schedule.foldl (Creators.turn .lp64) twoCalls).2.calls 0).map (·.phase.over) = some true ∧
    ((schedule.foldl (Creators.turn .lp64) twoCalls).2.calls 1).map (·.phase.over) = some true := by
  decide +kernel

end Iris
