import Verif.Spec.PolicyText
import Verif.Lemmas.LogText
import Verif.Lemmas.WinPolicy
/-! Helper lemmas about printed policies (C119). -/
namespace Iris
open Spec

theorem unlines_textLog (l : List Str) : unlines l = Spec.textLog (l.map fun m => ⟨.info, m⟩) := by
  induction l with
  | nil => rfl
  | cons a l ih => simp only [unlines, List.map_cons, Spec.textLog, ih]

theorem unlines_inj {l l' : List Str} (h1 : ∀ s ∈ l, '\n' ∉ s) (h2 : ∀ s ∈ l', '\n' ∉ s)
    (h : unlines l = unlines l') : l = l' := by
  rw [unlines_textLog, unlines_textLog] at h
  have := textLog_inj (by simpa using h1) (by simpa using h2) h
  simpa [Function.comp_def] using this

/-- What remains of an item on paper. -/
def accPaper (a : Acc) : Bool × Bool × Nat := (a.read, a.write, lockKinds a)

def PrintedItem.paper : PrintedItem → Nat × Nat × Str × (Bool × Bool × Nat)
  | .handle h => (0, h, [], (false, false, 0))
  | .file path a => (1, 0, path, accPaper a)
  | .dir path a => (2, 0, path, accPaper a)
  | .regKey path a => (3, 0, path, (a.1, a.2, 0))

def allAcc : List Acc :=
  let b := [true, false]
  b.flatMap fun r => b.flatMap fun w => b.flatMap fun x => b.flatMap fun y => b.map fun z => ⟨r, w, x, y, z⟩

theorem mem_allAcc (a : Acc) : a ∈ allAcc := by
  obtain ⟨r, w, x, y, z⟩ := a
  cases r <;> cases w <;> cases x <;> cases y <;> cases z <;> decide

/-- What follows the path on a line, with what it means. -/
def itemTails : List (Str × Nat × (Bool × Bool × Nat)) :=
  allAcc.map (fun a => (c!" file" ++ accWords a, 1, accPaper a)) ++
  allAcc.map (fun a => (c!" directory" ++ accWords a, 2, accPaper a)) ++
  [(true, true), (true, false), (false, true), (false, false)].map (fun (a : Bool × Bool) =>
    (c!" registry key" ++ (if a.1 then c!" read" else []) ++ (if a.2 then c!" write" else []), 3, (a.1, a.2, 0)))

theorem itemTails_free : ∀ s ∈ itemTails, ∀ t ∈ itemTails, s.1.isSuffixOf t.1 = true → s = t := by
  decide +kernel

theorem itemTails_handle : ∀ s ∈ itemTails, s.1.isSuffixOf c!") }" = false ∧ List.isSuffixOf c!") }" s.1 = false := by
  decide +kernel

theorem itemTails_line : ∀ s ∈ itemTails, '\n' ∉ s.1 := by decide +kernel

theorem PrintedItem.shape (i : PrintedItem) :
    (∃ h, i = .handle h) ∨ ∃ path t, t ∈ itemTails ∧ i.line = c!"    " ++ path ++ t.1 ∧
      i.paper = (t.2.1, 0, path, t.2.2) := by
  cases i with
  | handle h => exact .inl ⟨h, rfl⟩
  | file path a =>
    refine .inr ⟨path, (c!" file" ++ accWords a, 1, accPaper a), ?_, by simp [PrintedItem.line], rfl⟩
    exact List.mem_append_left _ (List.mem_append_left _
      (List.mem_map_of_mem (f := fun a => (c!" file" ++ accWords a, 1, accPaper a)) (mem_allAcc a)))
  | dir path a =>
    refine .inr ⟨path, (c!" directory" ++ accWords a, 2, accPaper a), ?_, by simp [PrintedItem.line], rfl⟩
    exact List.mem_append_left _ (List.mem_append_right _
      (List.mem_map_of_mem (f := fun a => (c!" directory" ++ accWords a, 2, accPaper a)) (mem_allAcc a)))
  | regKey path a =>
    refine .inr ⟨path, (c!" registry key" ++ (if a.1 then c!" read" else []) ++ (if a.2 then c!" write" else []), 3,
      (a.1, a.2, 0)), ?_, by simp [PrintedItem.line], rfl⟩
    refine List.mem_append_right _ ?_
    obtain ⟨x, y⟩ := a
    cases x <;> cases y <;> decide

theorem handle_line (h : Nat) :
    (PrintedItem.handle h).line = (c!"    Inherit handle Handle { val: Some(" ++ dec h) ++ c!") }" := by
  simp [PrintedItem.line, handleDebug]

theorem PrintedItem.line_inj {i j : PrintedItem} (h : i.line = j.line) : i.paper = j.paper := by
  rcases i.shape with ⟨x, rfl⟩ | ⟨p, t, ht, e, ep⟩ <;> rcases j.shape with ⟨y, rfl⟩ | ⟨q, u, hu, f, fp⟩
  · rw [handle_line, handle_line] at h
    rw [decText_inj (List.append_cancel_left (List.append_cancel_right h))]
  · rw [handle_line, f] at h
    exact absurd h (ends_ne (itemTails_handle u hu).2 (itemTails_handle u hu).1)
  · rw [handle_line, e] at h
    exact absurd h (ends_ne (itemTails_handle t ht).1 (itemTails_handle t ht).2)
  · rw [e, f] at h
    have h12 : (c!"    " ++ p = c!"    " ++ q) ∧ t.1 = u.1 := by
      refine ends_inj (l := itemTails.map Prod.fst) ?_ (List.mem_map_of_mem ht) (List.mem_map_of_mem hu) h
      intro s hs t' ht' hx
      obtain ⟨s', hs', rfl⟩ := List.mem_map.1 hs
      obtain ⟨t'', ht'', rfl⟩ := List.mem_map.1 ht'
      rw [itemTails_free _ hs' _ ht'' hx]
    have htu : t = u := itemTails_free t ht u hu (by rw [h12.2]; simp [List.isSuffixOf_iff_suffix])
    rw [ep, fp, htu, List.append_cancel_left h12.1]

/-- No line break comes from anything but the path. -/
theorem PrintedItem.oneLine {i : PrintedItem} (h : '\n' ∉ i.paper.2.2.1) : '\n' ∉ i.line := by
  rcases i.shape with ⟨x, rfl⟩ | ⟨p, t, ht, e, ep⟩
  · rw [handle_line]
    simp [dec_free (c := '\n') (by decide)]
  · rw [ep] at h
    rw [e]
    simp [itemTails_line t ht, h]

theorem map_inj_paper : ∀ {l l' : List PrintedItem}, l.map PrintedItem.line = l'.map PrintedItem.line →
    l.map PrintedItem.paper = l'.map PrintedItem.paper
  | [], [], _ => rfl
  | [], _ :: _, h => by simp at h
  | _ :: _, [], h => by simp at h
  | a :: l, b :: l', h => by
    simp only [List.map_cons, List.cons.injEq] at h ⊢
    exact ⟨PrintedItem.line_inj h.1, map_inj_paper h.2⟩

/-- What a printed text says. -/
theorem prints_inj {p p' : Policy} {text : Str} (h1 : OneLineRules p) (h2 : OneLineRules p')
    (hp : p.Prints text) (hp' : p'.Prints text) :
    p.auditOnly = p'.auditOnly ∧ (∀ x, x ∈ p.inherit → x ∈ p'.inherit) ∧
    (∀ k a, (k, a) ∈ p.files → ∃ b, (k, b) ∈ p'.files ∧ accPaper a = accPaper b) ∧
    (∀ k a, (k, a) ∈ p.dirs → ∃ b, (k, b) ∈ p'.dirs ∧ accPaper a = accPaper b) ∧
    (∀ k a, (k, a) ∈ p.regkeys → (k, a) ∈ p'.regkeys) := by
  obtain ⟨hs, fs, ds, rs, e1, e2, e3, e4, rfl⟩ := hp
  obtain ⟨hs', fs', ds', rs', e1', e2', e3', e4', ht⟩ := hp'
  have head : ∀ b, '\n' ∉ printHeader b := by decide
  have one : ∀ (p : Policy) (hs : List Nat) (fs ds : List (Str × Acc)) (rs : List (Str × (Bool × Bool))),
      OneLineRules p → fs.Perm p.files → ds.Perm p.dirs → rs.Perm p.regkeys → ∀ s ∈ ([printHeader p.auditOnly]
      ++ (hs.map PrintedItem.handle ++ fs.map (fun e => PrintedItem.file e.1 e.2)
        ++ ds.map (fun e => PrintedItem.dir e.1 e.2) ++ rs.map (fun e => PrintedItem.regKey e.1 e.2)).map PrintedItem.line
      ++ [c!"}"]), '\n' ∉ s := by
    intro p hs fs ds rs hl e2 e3 e4 s hm
    simp only [List.mem_append, List.mem_singleton] at hm
    rcases hm with (rfl | hm) | rfl
    · exact head _
    · obtain ⟨i, hi, rfl⟩ := List.mem_map.1 hm
      apply PrintedItem.oneLine
      simp only [List.mem_append, List.mem_map] at hi
      rcases hi with ((⟨x, _, rfl⟩ | ⟨e, he, rfl⟩) | ⟨e, he, rfl⟩) | ⟨e, he, rfl⟩
      · simp [PrintedItem.paper]
      · exact hl.1 e (e2.mem_iff.1 he)
      · exact hl.2.1 e (e3.mem_iff.1 he)
      · exact hl.2.2 e (e4.mem_iff.1 he)
    · decide
  have hl := unlines_inj (one p hs fs ds rs h1 e2 e3 e4) (one p' hs' fs' ds' rs' h2 e2' e3' e4') ht
  have hl' := List.append_cancel_right hl
  simp only [List.cons_append, List.nil_append, List.cons.injEq] at hl'
  obtain ⟨hh, hb⟩ := hl'
  have hb := map_inj_paper hb
  have mem : ∀ i ∈ hs.map PrintedItem.handle ++ fs.map (fun e => PrintedItem.file e.1 e.2)
        ++ ds.map (fun e => PrintedItem.dir e.1 e.2) ++ rs.map (fun e => PrintedItem.regKey e.1 e.2),
      ∃ j ∈ hs'.map PrintedItem.handle ++ fs'.map (fun e => PrintedItem.file e.1 e.2)
        ++ ds'.map (fun e => PrintedItem.dir e.1 e.2) ++ rs'.map (fun e => PrintedItem.regKey e.1 e.2),
      j.paper = i.paper := by
    intro i hi
    have := List.mem_map_of_mem (f := PrintedItem.paper) hi
    rw [hb] at this
    exact List.mem_map.1 this
  simp only [List.mem_append, List.mem_map] at mem
  refine ⟨?_, fun x hx => ?_, fun k a hk => ?_, fun k a hk => ?_, fun k a hk => ?_⟩
  · revert hh; generalize p.auditOnly = a; generalize p'.auditOnly = b; revert a b; decide
  · obtain ⟨j, hj, hp⟩ := mem (.handle x) (.inl (.inl (.inl ⟨x, e1.mem_iff.2 hx, rfl⟩)))
    rcases hj with ((⟨y, hy, rfl⟩ | ⟨e, he, rfl⟩) | ⟨e, he, rfl⟩) | ⟨e, he, rfl⟩ <;>
      simp [PrintedItem.paper] at hp
    subst hp; exact e1'.mem_iff.1 hy
  · obtain ⟨j, hj, hp⟩ := mem (.file k a) (.inl (.inl (.inr ⟨(k, a), e2.mem_iff.2 hk, rfl⟩)))
    rcases hj with ((⟨y, hy, rfl⟩ | ⟨e, he, rfl⟩) | ⟨e, he, rfl⟩) | ⟨e, he, rfl⟩ <;>
      simp [PrintedItem.paper] at hp
    obtain ⟨rfl, hp⟩ := hp
    exact ⟨e.2, e2'.mem_iff.1 he, hp.symm⟩
  · obtain ⟨j, hj, hp⟩ := mem (.dir k a) (.inl (.inr ⟨(k, a), e3.mem_iff.2 hk, rfl⟩))
    rcases hj with ((⟨y, hy, rfl⟩ | ⟨e, he, rfl⟩) | ⟨e, he, rfl⟩) | ⟨e, he, rfl⟩ <;>
      simp [PrintedItem.paper] at hp
    obtain ⟨rfl, hp⟩ := hp
    exact ⟨e.2, e3'.mem_iff.1 he, hp.symm⟩
  · obtain ⟨j, hj, hp⟩ := mem (.regKey k a) (.inr ⟨(k, a), e4.mem_iff.2 hk, rfl⟩)
    rcases hj with ((⟨y, hy, rfl⟩ | ⟨e, he, rfl⟩) | ⟨e, he, rfl⟩) | ⟨e, he, rfl⟩ <;>
      simp [PrintedItem.paper] at hp
    obtain ⟨rfl, h3, h4⟩ := hp
    have : a = e.2 := Prod.ext h3.symm h4.symm
    rw [this]; exact e4'.mem_iff.1 he

theorem get_almost {m m' : AMap Acc} (hw : m.WF) (hw' : m'.WF)
    (h1 : ∀ k a, (k, a) ∈ m → ∃ b, (k, b) ∈ m' ∧ accPaper a = accPaper b)
    (h2 : ∀ k a, (k, a) ∈ m' → ∃ b, (k, b) ∈ m ∧ accPaper a = accPaper b) (k : Str) :
    AlmostSame (AMap.get m k) (AMap.get m' k) := by
  cases hg : AMap.get m k with
  | some a =>
    obtain ⟨b, hb, he⟩ := h1 k a (AMap.mem_of_get hg)
    rw [AMap.get_of_mem hw' hb]
    simp only [accPaper, Prod.mk.injEq] at he
    exact he
  | none =>
    cases hg' : AMap.get m' k with
    | none => trivial
    | some a =>
      obtain ⟨b, hb, he⟩ := h2 k a (AMap.mem_of_get hg')
      rw [AMap.get_of_mem hw hb] at hg
      cases hg

theorem get_same {α : Type} {m m' : AMap α} (hw : m.WF) (hw' : m'.WF)
    (h1 : ∀ k a, (k, a) ∈ m → (k, a) ∈ m') (h2 : ∀ k a, (k, a) ∈ m' → (k, a) ∈ m) (k : Str) :
    AMap.get m k = AMap.get m' k := by
  cases hg : AMap.get m k with
  | some a => rw [AMap.get_of_mem hw' (h1 k a (AMap.mem_of_get hg))]
  | none =>
    cases hg' : AMap.get m' k with
    | none => rfl
    | some a => rw [AMap.get_of_mem hw (h2 k a (AMap.mem_of_get hg'))] at hg; cases hg

/-! ## What decisions depend on -/

theorem allowedAccess_chain {f : Acc → Bool} (hf : ProjOk f) (sep : Char) (p : Policy) (path : Str) :
    f (p.allowedAccess sep path) = true ↔ TableHas f p.files ((stripSuffix sep path).getD path) ∨
      ∃ k ∈ chain sep ((stripSuffix sep path).getD path), TableHas f p.dirs k := by
  simp only [Policy.allowedAccess, Policy.lookupTraced, walk_chain hf]
  cases hg : AMap.get p.files ((stripSuffix sep path).getD path) with
  | none => simp [TableHas, hg, hf.none]
  | some a => simp [TableHas, hg, hf.or, hf.none]

theorem allowedAccess_same {f : Acc → Bool} (hf : ProjOk f) (sep : Char) {p q : Policy}
    (h1 : ∀ k, TableHas f p.files k ↔ TableHas f q.files k) (h2 : ∀ k, TableHas f p.dirs k ↔ TableHas f q.dirs k)
    (path : Str) : f (p.allowedAccess sep path) = f (q.allowedAccess sep path) := by
  rw [Bool.eq_iff_iff, allowedAccess_chain hf, allowedAccess_chain hf, h1]
  simp only [h2]

theorem almostSame_read {m m' : AMap Acc} (h : ∀ k, AlmostSame (AMap.get m k) (AMap.get m' k)) (k : Str) :
    (TableHas Acc.read m k ↔ TableHas Acc.read m' k) ∧ (TableHas Acc.write m k ↔ TableHas Acc.write m' k) := by
  have := h k
  simp only [TableHas]
  cases hg : AMap.get m k with
  | none =>
    cases hg' : AMap.get m' k with
    | none => simp
    | some b => rw [hg, hg'] at this; exact this.elim
  | some a =>
    cases hg' : AMap.get m' k with
    | none => rw [hg, hg'] at this; exact this.elim
    | some b =>
      rw [hg, hg'] at this
      simp [this.1, this.2.1]

theorem almostSame_noLock {m m' : AMap Acc} (h : ∀ k, AlmostSame (AMap.get m k) (AMap.get m' k))
    (hl : ∀ e ∈ m, lockKinds e.2 = 0) (k : Str) : AMap.get m k = AMap.get m' k := by
  have := h k
  cases hg : AMap.get m k with
  | none =>
    cases hg' : AMap.get m' k with
    | none => rfl
    | some b => rw [hg, hg'] at this; exact this.elim
  | some a =>
    cases hg' : AMap.get m' k with
    | none => rw [hg, hg'] at this; exact this.elim
    | some b =>
      rw [hg, hg'] at this
      have hz := hl _ (AMap.mem_of_get hg)
      obtain ⟨r, w, x, y, z⟩ := a
      obtain ⟨r', w', x', y', z'⟩ := b
      obtain ⟨h1, h2, h3⟩ := this
      simp only [lockKinds] at h1 h2 h3 hz
      subst h1 h2
      cases x <;> cases y <;> cases z <;> simp at hz
      cases x' <;> cases y' <;> cases z' <;> simp at h3
      rfl

/-! ## Keys of the tables -/

/-- All entries of the tables of files and directories satisfy something. -/
def Policy.Entries (P : Str → Acc → Prop) (p : Policy) : Prop :=
  (∀ e ∈ p.files, P e.1 e.2) ∧ (∀ e ∈ p.dirs, P e.1 e.2)

theorem mergeAccess_entries {P : Str → Acc → Prop} {sep : Char} {m : AMap Acc} {d : Str} {acc : Acc}
    (hm : ∀ e ∈ m, P e.1 e.2) (hP : ∀ a, (a = Acc.none ∨ P (stripTrailing sep d) a) → P (stripTrailing sep d) (a.or acc)) :
    ∀ e ∈ mergeAccess sep m d acc, P e.1 e.2 := by
  intro e he
  simp only [mergeAccess, AMap.insert, List.mem_cons, List.mem_filter] at he
  rcases he with rfl | ⟨he, _⟩
  · refine hP _ ?_
    cases hg : AMap.get m (stripTrailing sep d) with
    | none => exact .inl rfl
    | some a => exact .inr (hm _ (AMap.mem_of_get hg))
  · exact hm e he

theorem addRule_entries {P : Str → Acc → Prop} {sep : Char} {dir : Bool} {acc : Acc} {ds : List Str} {p : Policy}
    (hp : p.Entries P)
    (hP : ∀ d ∈ ds, ∀ a, (a = Acc.none ∨ P (stripTrailing sep d) a) → P (stripTrailing sep d) (a.or acc)) :
    (ds.foldl (addRule sep dir acc) p).Entries P := by
  induction ds generalizing p with
  | nil => exact hp
  | cons d ds ih =>
    refine ih ?_ (fun d' hd' => hP d' (by simp [hd']))
    cases dir
    · exact ⟨mergeAccess_entries hp.1 (hP d (by simp)), hp.2⟩
    · exact ⟨hp.1, mergeAccess_entries hp.2 (hP d (by simp))⟩

theorem fsCall_entries {P : Str → Acc → Prop} {os : PathOs} {p : Policy} (hp : p.Entries P) (c : FsCall)
    (hP : ∀ ds, os.derive c.path = .ok ds → ∀ d ∈ ds, ∀ a, (a = Acc.none ∨ P (stripTrailing os.sep d) a) →
      P (stripTrailing os.sep d) (a.or c.acc)) :
    (p.fsCall os c).2.Entries P := by
  rw [fsCall_eq]
  cases hd : os.derive c.path with
  | error e => rw [allowFileAccess_error hd]; exact hp
  | ok ds => rw [allowFileAccess_ok hd]; exact addRule_entries hp (hP ds hd)

theorem stripTrailing_line {sep : Char} {d : Str} (h : '\n' ∉ d) : '\n' ∉ stripTrailing sep d := by
  simp only [stripTrailing]
  cases hs : stripSuffix sep d with
  | none => exact h
  | some t =>
    rw [stripSuffix_some hs] at h
    simp only [Option.getD_some]
    exact fun hc => h (List.mem_append_left _ hc)

theorem calls_oneLine {p : Policy} (hp : p.Entries (fun k _ => '\n' ∉ k)) (h : List Call)
    (hl : ∀ c, .fs c ∈ h → '\n' ∉ c.path) : (p.calls h).Entries (fun k _ => '\n' ∉ k) := by
  induction h generalizing p with
  | nil => exact hp
  | cons c h ih =>
    refine ih ?_ (fun c hc => hl c (by simp [hc]))
    cases c with
    | fs c =>
      refine fsCall_entries hp c (fun ds hds d hd a _ => stripTrailing_line ?_)
      simp only [linuxOs] at hds
      split at hds
      · cases hds
      · cases hds
        rw [List.mem_singleton.1 hd]
        exact hl c (by simp)
    | addLogCallback cb => exact hp
    | inheritHandle raw q =>
      simp only [Policy.call, Policy.allowInheritHandle]
      split <;> exact hp

theorem calls_regkeys (p : Policy) (h : List Call) : (p.calls h).regkeys = p.regkeys := by
  induction h generalizing p with
  | nil => rfl
  | cons c h ih =>
    refine (ih _).trans ?_
    cases c with
    | fs c => exact (fsCall_rest linuxOs p c).2.2.1
    | addLogCallback cb => rfl
    | inheritHandle raw q =>
      simp only [Policy.call, Policy.allowInheritHandle]
      split <;> rfl

theorem winCall_wf {os : WinOs} {p : Policy} (h : p.WF) (c : WinCall) : (p.winCall os c).2.WF := by
  have reg : ∀ path acc, (p.allowRegKey os path acc).2.WF := by
    intro path acc
    simp only [Policy.allowRegKey]
    split
    · exact h
    · rename_i paths _
      refine ⟨h.1, h.2.1, ?_, h.2.2.2⟩
      have : ∀ (l : List Str) (m : AMap (Bool × Bool)), m.WF → (l.foldl (fun m d => mergeRegKey m d acc) m).WF := by
        intro l
        induction l with
        | nil => exact fun m hm => hm
        | cons d l ih => exact fun m hm => ih _ (AMap.wf_insert hm _ _)
      exact this _ _ h.2.2.1
  cases c with
  | fs d => exact fsCall_wf h d
  | regRead path => exact reg _ _
  | regWrite path => exact reg _ _
  | addLogCallback cb => exact h
  | inheritHandle raw q =>
    simp only [Policy.winCall, Policy.allowInheritHandle]
    split
    · exact h
    · exact h
    · exact ⟨h.1, h.2.1, h.2.2.1, setInsert_nodup h.2.2.2 _⟩

theorem winCalls_tables_wf {os : WinOs} {p : Policy} (h : p.WF) (cs : List WinCall) : (p.winCalls os cs).WF := by
  induction cs generalizing p with
  | nil => exact h
  | cons c cs ih => exact ih (winCall_wf h c)

theorem winCalls_noLock {os : WinOs} {p : Policy} (hp : p.Entries (fun _ a => lockKinds a = 0)) (h : List WinCall)
    (hl : ∀ c, .fs c ∈ h → ¬ IsLock c) : (p.winCalls os h).Entries (fun _ a => lockKinds a = 0) := by
  induction h generalizing p with
  | nil => exact hp
  | cons c h ih =>
    refine ih ?_ (fun c hc => hl c (by simp [hc]))
    have reg : ∀ path acc, (p.allowRegKey os path acc).2.Entries (fun _ a => lockKinds a = 0) := by
      intro path acc
      simp only [Policy.allowRegKey]
      split <;> exact hp
    cases c with
    | fs c =>
      refine fsCall_entries hp c (fun ds _ d _ a ha => ?_)
      have hz : lockKinds a = 0 := by
        rcases ha with rfl | ha
        · rfl
        · exact ha
      have hn := hl c (by simp)
      have hc : c.acc.blockR = false ∧ c.acc.blockW = false ∧ c.acc.blockD = false := by
        cases c <;> simp_all [IsLock, FsCall.acc]
      simp only [lockKinds, Acc.or, hc.1, hc.2.1, hc.2.2, Bool.or_false] at hz ⊢
      exact hz
    | regRead path => exact reg _ _
    | regWrite path => exact reg _ _
    | addLogCallback cb => exact hp
    | inheritHandle raw q =>
      simp only [Policy.winCall, Policy.allowInheritHandle]
      split <;> exact hp

end Iris
