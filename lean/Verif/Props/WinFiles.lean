import Verif.Lemmas.WinFiles
import Verif.Props.WinBroker
/-!
# C138: the files opened for a Windows worker are those its rules name
-/
namespace Iris
open Spec

/-- One call of `NtCreateFile` for a path without reparse points on the way. -/
theorem ntCreate_step {k : NtKernel} {full : Str → Str} {h : List WinCall} {fs0 fs : NtTree} {path : Str}
    {disposition options : BitVec 32} (refuse : Option (BitVec 32)) (hd : NtMayHaveDone k.upcase full h fs0 fs)
    (hl : NoReparsePoints k.upcase full h fs0) (hg : ∃ right, Given full h right path) (hid : options &&& 0x2000#32 = 0#32)
    (hrp : Has options 0x200000) (hw : disposition ≠ 1#32 → Given full h .write path) :
    NtMayHaveDone k.upcase full h fs0 (ntCreateFile k fs (utf16 path) disposition options refuse).2 ∧
    ∀ i place, (ntCreateFile k fs (utf16 path) disposition options refuse).1 = .ok (i, place) →
      ∃ cs, PathOf path cs ∧ (List.length fs0 ≤ i ∨ NtNamed k.upcase fs0 cs i) ∧
        ∀ d c, place = some (d, c) → List.length fs0 ≤ d ∨ ∃ init, cs = init ++ [c] ∧ NtNamed k.upcase fs0 init d := by
  have stay : ∀ e : BitVec 32, NtMayHaveDone k.upcase full h fs0 fs ∧ ∀ i place,
      (Except.error e : Except (BitVec 32) (Nat × Option (Nat × Str))) = .ok (i, place) →
      ∃ cs, PathOf path cs ∧ (List.length fs0 ≤ i ∨ NtNamed k.upcase fs0 cs i) ∧
        ∀ d c, place = some (d, c) → List.length fs0 ≤ d ∨ ∃ init, cs = init ++ [c] ∧ NtNamed k.upcase fs0 init d :=
    fun e => ⟨hd, fun _ _ h => by cases h⟩
  unfold ntCreateFile
  cases refuse with
  | some e => exact stay e
  | none =>
    have hf : decide (options &&& FILE_FLAG_OPEN_REPARSE_POINT = 0#32) = false := decide_eq_false hrp
    simp only [if_neg (show ¬ (options &&& 0x2000#32 ≠ 0#32) from fun x => x hid), fromUtf16_utf16, Option.bind_some, hf]
    cases hnames : ntNames path with
    | none => exact stay _
    | some x =>
      obtain ⟨cs, slash⟩ := x
      simp only []
      have hl' : ∀ ds i t, (∀ c ∈ cs, c ≠ []) → ds <+: cs → ds ≠ cs → NtNamed k.upcase fs ds i → fs[i]? ≠ some (.link t) := by
        intro ds i t hne hp hne' hn
        obtain ⟨right, hr⟩ := hg
        exact hd.noReparsePoints hl right path cs ds i t hr (ntNames_pathOf hnames hne) hp hne' hn
      by_cases hne : ∀ c ∈ cs, c ≠ []
      · have hp := ntNames_pathOf hnames hne
        have hwalk := ntWalkLinks_named (k := k) (fs := fs) 63 (fun ds i t => hl' ds i t hne)
        cases hr : ntWalkLinks k fs false 63 cs with
        | failed e => exact stay e
        | missing d c =>
          obtain ⟨_, init, h1, h2⟩ := hwalk.2 d c hr
          have hplace : List.length fs0 ≤ d ∨ ∃ init, cs = init ++ [c] ∧ NtNamed k.upcase fs0 init d := by
            rcases hd.named h2 with x | x
            · exact .inl x
            · exact .inr ⟨init, h1, x⟩
          simp only [ntOpenMissing]
          split
          · exact stay _
          · rename_i hdis
            have hw' : List.length fs0 ≤ d ∨ NtMayEnter k.upcase full h fs0 d c := by
              rcases hplace with x | ⟨init, x, y⟩
              · exact .inl x
              · exact .inr ⟨path, init, c, hw (fun e => hdis (.inl e)), x ▸ hp, rfl, y⟩
            split
            · split
              · refine ⟨hd.add (.inr rfl) hw', fun i place hi => ?_⟩
                cases hi
                exact ⟨cs, hp, .inl hd.length, fun d' c' he => by cases he; exact hplace⟩
              · exact stay _
            · split
              · exact stay _
              · refine ⟨hd.add (.inl rfl) hw', fun i place hi => ?_⟩
                cases hi
                exact ⟨cs, hp, .inl hd.length, fun d' c' he => by cases he; exact hplace⟩
        | found i place =>
          obtain ⟨_, h1, h2⟩ := hwalk.1 i place hr
          have hok : ∀ fs', NtMayHaveDone k.upcase full h fs0 fs' → NtMayHaveDone k.upcase full h fs0 fs' ∧ ∀ i' place',
              (Except.ok (i, place) : Except (BitVec 32) (Nat × Option (Nat × Str))) = .ok (i', place') →
              ∃ cs, PathOf path cs ∧ (List.length fs0 ≤ i' ∨ NtNamed k.upcase fs0 cs i') ∧
                ∀ d c, place' = some (d, c) → List.length fs0 ≤ d ∨ ∃ init, cs = init ++ [c] ∧ NtNamed k.upcase fs0 init d := by
            intro fs' hd'
            refine ⟨hd', fun i' place' he => ?_⟩
            cases he
            refine ⟨cs, hp, hd.named h1, fun d c he => ?_⟩
            obtain ⟨init, x, y⟩ := h2 d c he
            rcases hd.named y with y | y
            · exact .inl y
            · exact .inr ⟨init, x, y⟩
          simp only [ntOpenFound]
          split
          · exact stay _
          · have hcontent : ¬ (disposition = 1#32 ∨ disposition = 3#32) → List.length fs0 ≤ i ∨ NtMayWrite k.upcase full h fs0 i := by
              intro hx
              rcases hd.named h1 with y | y
              · exact .inl y
              · exact .inr ⟨path, cs, hw (fun e => hx (.inl e)), hp, y⟩
            cases hi : fs[i]? with
            | none => exact stay _
            | some n =>
              cases n with
              | dir e =>
                simp only []
                split
                · exact hok _ hd
                · exact stay _
              | file b =>
                simp only []
                split
                · exact stay _
                · split
                  · exact hok _ hd
                  · rename_i hx
                    exact hok _ (hd.setFile [] hi (fun e he => by cases he) (hcontent hx))
              | link t =>
                simp only []
                split
                · exact stay _
                · split
                  · exact hok _ hd
                  · rename_i hx
                    exact hok _ (hd.setFile [] hi (fun e he => by cases he) (hcontent hx))
      · simp only [Classical.not_forall, Classical.not_not] at hne
        obtain ⟨c, hm, rfl⟩ := hne
        obtain ⟨e, he⟩ := ntWalkLinks_empty (k := k) (fs := fs) false 63 cs hm
        rw [he]
        exact stay e

/-- What is known of the files and of those the worker has. -/
def NtFilesOk (up full : Str → Str) (h : List WinCall) (fs : NtTree) (st : NtFileState) : Prop :=
  NtMayHaveDone up full h fs st.tree ∧
  ∀ o ∈ st.opened, ∃ path cs, PathOf path cs ∧ (∃ right, Given full h right path) ∧
    (NtReadable o.access → Given full h .read path ∨ o.disposition ≠ 1 ∧ o.disposition ≠ 3 ∧ Given full h .write path) ∧
    (NtWritable o.access ∨ Has o.options 0x1000 → Given full h .write path) ∧
    (List.length fs ≤ o.file ∨ NtNamed up fs cs o.file) ∧
    ∀ d c, o.place = some (d, c) → List.length fs ≤ d ∨ ∃ init, cs = init ++ [c] ∧ NtNamed up fs init d

theorem ntFilesRun_ok {k : NtKernel} {full : Str → Str} {h : List WinCall} {fs : NtTree} {acts : List WinAction} {st : NtFileState}
    (hr : NtFilesRun k fs acts st) (hk : k.linkable = false) (hl : NoReparsePoints k.upcase full h fs)
    (hg : ∀ access name allocation attributes share disposition options ea r,
      WinAction.called (.createFile access name allocation attributes share disposition options ea) r ∈ acts →
      ∃ path, name = utf16 path ∧ options &&& 0x2000#32 = 0#32 ∧ Has options 0x200000 ∧ (∃ right, Given full h right path) ∧
        ∀ right, Asks access share disposition options ea right → Given full h right path) :
    NtFilesOk k.upcase full h fs st := by
  induction hr with
  | start => exact ⟨.refl, by simp⟩
  | others acts st a _ _ ih => exact ih fun _ _ _ _ _ _ _ _ _ hm => hg _ _ _ _ _ _ _ _ _ (List.mem_append_left _ hm)
  | creates acts st access name allocation attributes share disposition options ea r refuse _ ih =>
    obtain ⟨h1, h2⟩ := ih fun _ _ _ _ _ _ _ _ _ hm => hg _ _ _ _ _ _ _ _ _ (List.mem_append_left _ hm)
    obtain ⟨path, rfl, hid, hrp, hright, hall⟩ := hg access name allocation attributes share disposition options ea r (by simp)
    have hstep := ntCreate_step (disposition := disposition) refuse h1 hl hright hid hrp
      (fun hd => hall .write (.inr (.inl hd)))
    simp only [NtFileState.create]
    cases hc : ntCreateFile k st.tree (utf16 path) disposition options refuse with
    | mk res fs' =>
      rw [hc] at hstep
      obtain ⟨a, b⟩ := hstep
      cases res with
      | error e => exact ⟨a, h2⟩
      | ok x =>
        obtain ⟨i, place⟩ := x
        refine ⟨a, fun o ho => ?_⟩
        rcases List.mem_append.1 ho with ho | ho
        · exact h2 o ho
        · simp only [List.mem_singleton] at ho
          subst ho
          obtain ⟨cs, hp, hn, hpl⟩ := b i place rfl
          refine ⟨path, cs, hp, hright, ?_, ?_, hn, hpl⟩
          · rintro ⟨bit, hb, hb'⟩
            have hb'' : ∃ i ∈ [0, 3, 7, 28, 31], access.getLsbD i = true := ⟨bit, by simp at hb ⊢; omega, hb'⟩
            by_cases h1 : disposition = 1
            · exact .inl (hall .read ⟨hb'', .inl h1⟩)
            · by_cases h3 : disposition = 3
              · exact .inl (hall .read ⟨hb'', .inr h3⟩)
              · exact .inr ⟨h1, h3, hall .write (.inr (.inl h1))⟩
          · rintro (hb | hb)
            · exact hall .write (.inl hb)
            · exact hall .write (.inr (.inr (.inl hb)))
  | writes acts st o content _ ho hw ih =>
    obtain ⟨h1, h2⟩ := ih hg
    obtain ⟨path, cs, hp, _, _, hwr, hn, _⟩ := h2 o ho
    have hgw := hwr (.inl (by
      obtain ⟨b, hb, hb'⟩ := hw
      exact ⟨b, by simp at hb ⊢; omega, hb'⟩))
    simp only [NtFileState.write]
    split
    · rename_i b hi
      refine ⟨h1.setFile content hi (fun e he => by cases he) ?_, h2⟩
      rcases hn with x | x
      · exact .inl x
      · exact .inr ⟨path, cs, hgw, hp, x⟩
    · exact ⟨h1, h2⟩
  | removes acts st o _ ho hd ih =>
    obtain ⟨h1, h2⟩ := ih hg
    obtain ⟨path, cs, hp, _, _, hwr, hn, hpl⟩ := h2 o ho
    have hgw := hwr (by
      rcases hd with ⟨b, hb, hb'⟩ | hd
      · exact .inl ⟨b, by simp at hb ⊢; omega, hb'⟩
      · exact .inr hd)
    simp only [NtFileState.remove]
    split
    · exact ⟨h1, h2⟩
    · rename_i d c hplace
      split
      · exact ⟨h1, h2⟩
      · rename_i hdir _
        split
        · refine ⟨h1.setDir hdir (fun c' j hm => .inl (List.mem_filter.1 hm).1) (fun c' j hm => ?_), h2⟩
          by_cases hc : k.upcase c' = k.upcase c
          · right
            rcases hpl d c hplace with x | ⟨init, x, y⟩
            · exact .inl x
            · exact .inr ⟨path, init, c, hgw, x ▸ hp, hc.symm, y⟩
          · exact .inl (List.mem_filter.2 ⟨hm, by simpa using hc⟩)
        · exact ⟨h1, h2⟩
      · exact ⟨h1, h2⟩
  | relinks acts st o target _ ho hk' => rw [hk] at hk'; cases hk'

/-- The calls of a session of a worker which names files plainly. -/
theorem winSession_granted (os : WinOs) (full : Str → Str) (hos : FullNames os full) (h : List WinCall) (t : WinTables)
    (pipe process : BitVec 64) (first : WinIncoming × WinChoice) (rest : List (WinIncoming × WinChoice)) (hp : PlainNames rest) :
    ∀ access name allocation attributes share disposition options ea r,
      WinAction.called (.createFile access name allocation attributes share disposition options ea) r ∈
        ((WinBroker.start t pipe process).run false (Policy.nothingAllowed.winCalls os h) first rest).trace →
      ∃ path, name = utf16 path ∧ options &&& 0x2000#32 = 0#32 ∧ Has options 0x200000 ∧ (∃ right, Given full h right path) ∧
        ∀ right, Asks access share disposition options ea right → Given full h right path := by
  intro access name allocation attributes share disposition options ea r hm
  obtain ⟨i, hi, path, attributes', options', h1, h2, h3, h4, h5⟩ := C64_file_name_partial false _ t pipe process first rest
    access name allocation attributes share disposition options ea (win_called_mem hm)
  obtain ⟨hlen, hid⟩ := hp i hi _ _ _ _ _ _ _ _ h1
  obtain ⟨g1, _, g3, g4⟩ := C58_no_excess_access false os full hos h path _ _ _ _ _ _ (.inl rfl) h3
  refine ⟨path, h5 hlen, ?_, g1.2.2.1, g3, g4⟩
  have hid : options' &&& 0x2000#32 = 0#32 := Classical.not_not.1 hid
  rw [h2]
  have e : (options' ||| 0x200000#32) &&& 0x2000#32 = (options' &&& 0x2000#32) ||| (0x200000#32 &&& 0x2000#32) := by
    apply BitVec.eq_of_getLsbD_eq
    intro j _
    simp only [BitVec.getLsbD_and, BitVec.getLsbD_or]
    cases options'.getLsbD j <;> cases (0x200000#32).getLsbD j <;> cases (0x2000#32).getLsbD j <;> rfl
  rw [e, hid]
  decide

section
variable (os : WinOs) (full : Str → Str) (hos : FullNames os full) (h : List WinCall) (t : WinTables) (pipe process : BitVec 64)
  (first : WinIncoming × WinChoice) (rest : List (WinIncoming × WinChoice)) (k : NtKernel) (fs : NtTree) (st : NtFileState)
include hos

/-- C138: as long as no reparse point is on the way, the worker is not let make one and names files by paths which are not too long,
each file it has is one made since, or is named by a path its rules allow. They allow to read it if it can be read from, unless it
was emptied when it was opened, and to write to it if it can be changed or deleted. -/
theorem C138_opened_partial (hp : PlainNames rest) (hk : k.linkable = false) (hl : NoReparsePoints k.upcase full h fs)
    (hr : NtFilesRun k fs ((WinBroker.start t pipe process).run false (Policy.nothingAllowed.winCalls os h) first rest).trace st)
    (o : NtOpened) (ho : o ∈ st.opened) :
    ∃ path cs, PathOf path cs ∧ (List.length fs ≤ o.file ∨ NtNamed k.upcase fs cs o.file) ∧ (∃ right, Given full h right path) ∧
      (NtReadable o.access → Given full h .read path ∨ o.disposition ≠ 1 ∧ o.disposition ≠ 3 ∧ Given full h .write path) ∧
      (NtWritable o.access ∨ Has o.options 0x1000 → Given full h .write path) := by
  obtain ⟨path, cs, a, b, c, d, e, _⟩ :=
    (ntFilesRun_ok hr hk hl (winSession_granted os full hos h t pipe process first rest hp)).2 o ho
  exact ⟨path, cs, a, e, b, c, d⟩

/-- C138: in the same circumstances, all that is changed is what the rules allow to write to: contents of regular files, and entries of
directories. No reparse point is made. -/
theorem C138_changed_partial (hp : PlainNames rest) (hk : k.linkable = false) (hl : NoReparsePoints k.upcase full h fs)
    (hr : NtFilesRun k fs ((WinBroker.start t pipe process).run false (Policy.nothingAllowed.winCalls os h) first rest).trace st) :
    NtMayHaveDone k.upcase full h fs st.tree :=
  (ntFilesRun_ok hr hk hl (winSession_granted os full hos h t pipe process first rest hp)).1

/-- C138: so there is still no reparse point on the way, and what is true of a worker's session is true of those after it. -/
theorem C138_no_links_made_partial (hp : PlainNames rest) (hk : k.linkable = false) (hl : NoReparsePoints k.upcase full h fs)
    (hr : NtFilesRun k fs ((WinBroker.start t pipe process).run false (Policy.nothingAllowed.winCalls os h) first rest).trace st) :
    NoReparsePoints k.upcase full h st.tree :=
  (ntFilesRun_ok hr hk hl (winSession_granted os full hos h t pipe process first rest hp)).1.noReparsePoints hl
end

/-- C138: when names in each directory are unambiguous, what a path names is what is opened: also a reparse point itself, not what it
leads to, if it is in the last place. -/
theorem C138_finds {k : NtKernel} {fs : NtTree} {path : Str} {cs : List Str} {options : BitVec 32} {i : Nat} (hp : PathOf path cs)
    (hcs : cs ≠ []) (hdots : ∀ c ∈ cs, c ≠ c!"." ∧ c ≠ c!"..") (hslash : path.getLast? ≠ some '\\')
    (hsound : ∀ (d : Nat) entries c j, fs[d]? = some (.dir entries) → (c, j) ∈ entries → j < List.length fs)
    (huniq : ∀ (d : Nat) entries a b x y, fs[d]? = some (.dir entries) → (a, x) ∈ entries → (b, y) ∈ entries → k.upcase a = k.upcase b → x = y)
    (hl : ∀ ds j t, ds <+: cs → ds ≠ cs → NtNamed k.upcase fs ds j → fs[j]? ≠ some (.link t))
    (hn : NtNamed k.upcase fs cs i) (hrp : Has options 0x200000) (hid : ¬ Has options 0x2000) (hdir : ¬ Has options 1)
    (hnodir : ¬ Has options 0x40) :
    ∃ place, ntCreateFile k fs (utf16 path) 1#32 options none = (.ok (i, place), fs) := by
  obtain ⟨slash, h1, h2⟩ := hp.names hcs
  have hs : slash = false := by
    cases slash with
    | false => rfl
    | true => exact absurd (h2.1 rfl) hslash
  subst hs
  have hf : decide (options &&& FILE_FLAG_OPEN_REPARSE_POINT = 0#32) = false := decide_eq_false hrp
  have hi : i < List.length fs := by
    cases hn with
    | root => exact absurd rfl hcs
    | entry cs d e n c _ _ hd hm _ => exact hsound d e n i hd hm
  obtain ⟨place, hw⟩ := ntWalkWith_finds (ntWalkLinks k fs false 62) hsound huniq cs [] 0 none .root
    (fun c hc => ⟨(hp.1 c hc).1, hdots c hc⟩) (by simpa using hl) (by simpa using hn)
  refine ⟨place, ?_⟩
  unfold ntCreateFile
  simp only [if_neg (show ¬ (options &&& 0x2000#32 ≠ 0#32) from hid), fromUtf16_utf16, Option.bind_some, h1, hf]
  have hw' : ntWalkLinks k fs false 63 cs = .found i place := hw
  simp only [hw', ntOpenFound]
  have hdir' : options &&& 1#32 = 0#32 := Classical.not_not.1 hdir
  have hnodir' : options &&& 0x40#32 = 0#32 := Classical.not_not.1 hnodir
  rw [if_neg (by decide), List.getElem?_eq_getElem hi]
  cases fs[i] <;> simp [hdir', hnodir']

/-! ### What goes wrong -/

/-- The files after some actions, when the kernel refuses nothing and the worker does nothing with them. -/
def ntFilesAfter (k : NtKernel) (fs : NtTree) (acts : List WinAction) : NtFileState :=
  acts.foldl (fun st a => match a with
    | .called (.createFile access name _ _ _ disposition options _) _ => st.create k access name disposition options none
    | _ => st) ⟨fs, []⟩

theorem ntFilesAfter_run (k : NtKernel) (fs : NtTree) (acts : List WinAction) : NtFilesRun k fs acts (ntFilesAfter k fs acts) := by
  generalize hn : acts.length = n
  induction n generalizing acts with
  | zero => cases acts with | nil => exact .start | cons => simp at hn
  | succ n ih =>
    rcases List.eq_nil_or_concat acts with rfl | ⟨l, a, rfl⟩
    · simp at hn
    · have := ih l (by simpa using hn)
      simp only [List.concat_eq_append] at *
      clear hn
      have e : ntFilesAfter k fs (l ++ [a]) = match a with
          | .called (.createFile access name _ _ _ disposition options _) _ =>
            (ntFilesAfter k fs l).create k access name disposition options none
          | _ => ntFilesAfter k fs l := by
        simp only [ntFilesAfter, List.foldl_append, List.foldl_cons, List.foldl_nil]
      rw [e]
      cases a with
      | notified n => exact .others _ _ _ this (by simp)
      | sent r f => exact .others _ _ _ this (by simp)
      | called c r =>
        cases c with
        | createFile a b c d e f g h => exact .creates _ _ _ _ _ _ _ _ _ _ _ _ this
        | createKey a b c d e => exact .others _ _ _ this (by simp)
        | openKey a b => exact .others _ _ _ this (by simp)

/-- `C:\s\f` is file 5, and `C:\d\j` is what is given. -/
def ntDemoTree (j : NtNode) : NtTree :=
  [.dir [(c!"??", 1)], .dir [(c!"C:", 2)], .dir [(c!"d", 3), (c!"s", 4)], .dir [(c!"j", 6)], .dir [(c!"f", 5)], .file [1, 2], j]

/-- A junction to `C:\s`. -/
def ntDemoLink : NtNode := .link [c!"??", c!"C:", c!"s"]

/-- The entries of a directory. -/
def ntEntries (fs : NtTree) (d : Nat) : List (Str × Nat) :=
  match fs[d]? with
  | some (.dir e) => e
  | _ => []

theorem NtNamed_last {fs : NtTree} {cs : List Str} {i : Nat} (h : NtNamed id fs cs i) :
    (i = 0 ∧ cs = []) ∨ ∃ cs' c d, cs = cs' ++ [c] ∧ d ∈ List.range fs.length ∧ (c, i) ∈ ntEntries fs d ∧ NtNamed id fs cs' d := by
  cases h with
  | root => exact .inl ⟨rfl, rfl⟩
  | entry cs d e n c _ h hd hm hc =>
    refine .inr ⟨cs, c, d, rfl, List.mem_range.2 (List.getElem?_eq_some_iff.1 hd).1, ?_, h⟩
    cases (show n = c from hc)
    simp [ntEntries, hd, hm]

theorem ntDemo_secret {j : NtNode} (hj : j = ntDemoLink ∨ j = .dir []) {cs : List Str} (h : NtNamed id (ntDemoTree j) cs 5) :
    cs = [c!"??", c!"C:", c!"s", c!"f"] := by
  have all : ∀ d ∈ List.range (ntDemoTree j).length, ∀ e ∈ ntEntries (ntDemoTree j) d,
      (e.2 = 5 → d = 4 ∧ e.1 = c!"f") ∧ (e.2 = 4 → d = 2 ∧ e.1 = c!"s") ∧ (e.2 = 2 → d = 1 ∧ e.1 = c!"C:") ∧
      (e.2 = 1 → d = 0 ∧ e.1 = c!"??") ∧ e.2 ≠ 0 := by
    rcases hj with rfl | rfl <;> decide
  rcases NtNamed_last h with ⟨h, _⟩ | ⟨cs4, c4, d4, rfl, r4, m4, h4⟩
  · cases h
  obtain ⟨rfl, rfl⟩ := (all d4 r4 _ m4).1 rfl
  rcases NtNamed_last h4 with ⟨h, _⟩ | ⟨cs3, c3, d3, rfl, r3, m3, h3⟩
  · cases h
  obtain ⟨rfl, rfl⟩ := (all d3 r3 _ m3).2.1 rfl
  rcases NtNamed_last h3 with ⟨h, _⟩ | ⟨cs2, c2, d2, rfl, r2, m2, h2⟩
  · cases h
  obtain ⟨rfl, rfl⟩ := (all d2 r2 _ m2).2.2.1 rfl
  rcases NtNamed_last h2 with ⟨h, _⟩ | ⟨cs1, c1, d1, rfl, r1, m1, h1⟩
  · cases h
  obtain ⟨rfl, rfl⟩ := (all d1 r1 _ m1).2.2.2.1 rfl
  rcases NtNamed_last h1 with ⟨_, rfl⟩ | ⟨cs0, c0, d0, rfl, r0, m0, h0⟩
  · rfl
  · exact absurd rfl (all d0 r0 _ m0).2.2.2.2

/-- Rules on `C:\d`. -/
def ntDemoRules : List WinCall := [.fs (.dirRead c!"C:\\d"), .fs (.dirWrite c!"C:\\d")]

/-- They say nothing of `C:\s\f`. -/
theorem ntDemo_not_given {path : Str} (hp : PathOf path [c!"??", c!"C:", c!"s", c!"f"]) (right : Right) :
    ¬ Given id ntDemoRules right path := by
  have ht : trim path = c!"\\??\\C:\\s\\f" := by
    rcases hp.2 with rfl | rfl <;> decide
  rintro ⟨c, hc, hg⟩
  have key : ∀ k, KernelName id c!"C:\\d" k → ¬ AtOrAbove k (trim path) := by
    rintro k ⟨_, rfl⟩
    rw [ht]
    rintro (x | x)
    · revert x; decide
    · revert x; decide
  simp only [ntDemoRules, List.mem_cons, WinCall.fs.injEq, List.not_mem_nil, or_false] at hc
  rcases hc with rfl | rfl
  · obtain ⟨_, k, hk, ha⟩ := hg; exact key k hk ha
  · obtain ⟨_, k, hk, ha⟩ := hg; exact key k hk ha

/-- C138, full statement: whatever the files are, and whatever the worker asks for and does with what it gets, each file it has is new,
or is named by a path its rules allow. -/
def Spec.NtOpensWhatRulesName (k : NtKernel) (rest : List (WinIncoming × WinChoice)) (fs : NtTree) : Prop :=
  ∀ (os : WinOs) (full : Str → Str) (h : List WinCall) (t : WinTables) (pipe process : BitVec 64) (first : WinIncoming × WinChoice)
    (st : NtFileState), FullNames os full →
    NtFilesRun k fs ((WinBroker.start t pipe process).run false (Policy.nothingAllowed.winCalls os h) first rest).trace st →
    ∀ o ∈ st.opened, ∃ path cs right, PathOf path cs ∧ (List.length fs ≤ o.file ∨ NtNamed k.upcase fs cs o.file) ∧
      Given full h right path

/-- A session of a worker which sends these requests. -/
def ntDemoRest (l : List WinIPCRequest) : List (WinIncoming × WinChoice) :=
  l.zipIdx.map fun r => (.message (winDemoBytes r.1 none), ⟨⟨0, 1, 0, 0x100, 7⟩, some (BitVec.ofNat 64 (0x20 + 4 * r.2)), true⟩)

/-- All that was done in it. -/
def ntDemoTrace (rest : List (WinIncoming × WinChoice)) : List WinAction :=
  ((WinBroker.start ⟨[(4, 1), (8, 2)], []⟩ 4 8).run false (Policy.nothingAllowed.winCalls plainOs ntDemoRules) winDemoFirst rest).trace

/-- A file it has is `C:\s\f`. -/
theorem ntDemo_violated {k : NtKernel} (hk : k.upcase = id) {rest : List (WinIncoming × WinChoice)} {j : NtNode}
    (hj : j = ntDemoLink ∨ j = .dir []) {st : NtFileState} (hr : NtFilesRun k (ntDemoTree j) (ntDemoTrace rest) st) {o : NtOpened}
    (ho : o ∈ st.opened) (h5 : o.file = 5) : ¬ Spec.NtOpensWhatRulesName k rest (ntDemoTree j) := by
  intro hall
  obtain ⟨path, cs, right, hp, hn, hg⟩ := hall plainOs id ntDemoRules _ 4 8 winDemoFirst st plainOs_full hr o ho
  rw [h5, hk] at hn
  rcases hn with hn | hn
  · have hlen : List.length (ntDemoTree j) = 7 := rfl
    omega
  · have := ntDemo_secret hj hn
    subst this
    exact ntDemo_not_given hp right hg

/-- A worker reads `C:\d\j\f`. -/
def ntThrough : WinIPCRequest := .ntCreateFile 1 c!"\\??\\C:\\d\\j\\f" 0 0 7 1 0 []
/-- A worker opens `C:\d\j`, for changing its attributes. -/
def ntLast : WinIPCRequest := .ntCreateFile 0x100 c!"\\??\\C:\\d\\j" 0 0 7 1 0 []
/-- A worker opens `C:\d` followed by an identifier. -/
def ntById : WinIPCRequest := .ntCreateFile 1 c!"\\??\\C:\\d\\1234" 0 0 7 1 0x2000 []

theorem ntThrough_plain : PlainNames (ntDemoRest [ntThrough]) := by
  intro i hi access path allocation attributes share disposition options ea he
  simp only [ntDemoRest, List.zipIdx_cons, List.zipIdx_nil, List.map_cons, List.map_nil, List.mem_singleton] at hi
  subst hi
  have e : winRequest (.message (winDemoBytes ntThrough none)) = some ntThrough := by decide +kernel
  rw [e] at he
  simp only [ntThrough, Option.some.injEq, WinIPCRequest.ntCreateFile.injEq] at he
  obtain ⟨_, rfl, _, _, _, _, rfl, _⟩ := he
  exact ⟨by decide, by unfold Has; decide⟩

/-- C138 is false when a reparse point is on the way, although `FILE_OPEN_REPARSE_POINT` is passed: a worker which may only use `C:\d`,
where `j` is a junction to `C:\s`, is given `C:\s\f`. -/
theorem C138_violated_junction : ∃ rest, PlainNames rest ∧
    ¬ Spec.NtOpensWhatRulesName ⟨id, fun _ => none, false⟩ rest (ntDemoTree ntDemoLink) :=
  ⟨_, ntThrough_plain, ntDemo_violated rfl (.inl rfl) (o := ⟨5, some (4, c!"f"), 1, 1, 0x200000⟩) (ntFilesAfter_run _ _ _)
    (by decide +kernel) rfl⟩

/-- C138 is false without any reparse point, when the name is an identifier: a worker which may only use `C:\d` is given `C:\s\f`. -/
theorem C138_violated_by_id :
    ¬ Spec.NtOpensWhatRulesName ⟨id, fun _ => some 5, false⟩ (ntDemoRest [ntById]) (ntDemoTree (.dir [])) :=
  ntDemo_violated rfl (.inr rfl) (o := ⟨5, none, 1, 1, 0x202000⟩) (ntFilesAfter_run _ _ _) (by decide +kernel) rfl

theorem ntMakes_plain : PlainNames (ntDemoRest [ntLast, ntThrough]) := by
  intro i hi access path allocation attributes share disposition options ea he
  have e1 : winRequest (.message (winDemoBytes ntLast none)) = some ntLast := by decide +kernel
  have e2 : winRequest (.message (winDemoBytes ntThrough none)) = some ntThrough := by decide +kernel
  simp only [ntDemoRest, List.zipIdx_cons, List.zipIdx_nil, List.map_cons, List.map_nil, List.mem_cons, List.not_mem_nil, or_false] at hi
  rcases hi with rfl | rfl
  · rw [e1] at he
    simp only [ntLast, Option.some.injEq, WinIPCRequest.ntCreateFile.injEq] at he
    obtain ⟨_, rfl, _, _, _, _, rfl, _⟩ := he
    exact ⟨by decide, by unfold Has; decide⟩
  · rw [e2] at he
    simp only [ntThrough, Option.some.injEq, WinIPCRequest.ntCreateFile.injEq] at he
    obtain ⟨_, rfl, _, _, _, _, rfl, _⟩ := he
    exact ⟨by decide, by unfold Has; decide⟩

/-- There is no reparse point at all. -/
theorem ntDemo_noReparsePoints (up full : Str → Str) (h : List WinCall) : NoReparsePoints up full h (ntDemoTree (.dir [])) := by
  intro _ _ _ _ i t _ _ _ _ _ hi
  match i, hi with
  | 0, hi => cases hi
  | 1, hi => cases hi
  | 2, hi => cases hi
  | 3, hi => cases hi
  | 4, hi => cases hi
  | 5, hi => cases hi
  | 6, hi => cases hi
  | _ + 7, hi => simp [ntDemoTree] at hi

/-- C138 is false without any reparse point, when the worker is let make one: it makes `C:\d\j`, which it may write to, a junction to
`C:\s`, and is given `C:\s\f`. -/
theorem C138_violated_makes_link : ∃ rest, PlainNames rest ∧ NoReparsePoints id id ntDemoRules (ntDemoTree (.dir [])) ∧
    ¬ Spec.NtOpensWhatRulesName ⟨id, fun _ => none, true⟩ rest (ntDemoTree (.dir [])) := by
  refine ⟨_, ntMakes_plain, ntDemo_noReparsePoints _ _ _, ?_⟩
  have ht : ntDemoTrace (ntDemoRest [ntLast, ntThrough]) = [.sent (.initialization (Policy.nothingAllowed.winCalls plainOs ntDemoRules)) none] ++
      [.called (.createFile 0x100 (utf16 c!"\\??\\C:\\d\\j") 0 0x80 7 1 0x200000 []) ⟨0, 1, 0, 0x100, 7⟩] ++
      [.sent (.ntCreateFile 1 0) (some (0x20, 7))] ++
      [.called (.createFile 1 (utf16 c!"\\??\\C:\\d\\j\\f") 0 0x80 7 1 0x200000 []) ⟨0, 1, 0, 0x100, 7⟩] ++
      [.sent (.ntCreateFile 1 0) (some (0x24, 7))] := by decide +kernel
  have r1 : NtFilesRun ⟨id, fun _ => none, true⟩ (ntDemoTree (.dir [])) _ _ := .start
  have r2 := NtFilesRun.others _ _ (.sent (.initialization (Policy.nothingAllowed.winCalls plainOs ntDemoRules)) none) r1 (by simp)
  have r3 := NtFilesRun.creates _ _ 0x100 (utf16 c!"\\??\\C:\\d\\j") 0 0x80 7 1 0x200000 [] ⟨0, 1, 0, 0x100, 7⟩ none r2
  have r4 := NtFilesRun.others _ _ (.sent (.ntCreateFile 1 0) (some (0x20, 7))) r3 (by simp)
  have r5 := NtFilesRun.relinks _ _ ⟨6, some (3, c!"j"), 0x100, 1, 0x200000⟩ [c!"??", c!"C:", c!"s"] r4 (by decide +kernel) rfl
    ⟨8, by simp, by decide⟩
  have r6 := NtFilesRun.creates _ _ 1 (utf16 c!"\\??\\C:\\d\\j\\f") 0 0x80 7 1 0x200000 [] ⟨0, 1, 0, 0x100, 7⟩ none r5
  have r7 := NtFilesRun.others _ _ (.sent (.ntCreateFile 1 0) (some (0x24, 7))) r6 (by simp)
  rw [List.nil_append, ← ht] at r7
  exact ntDemo_violated rfl (.inr rfl) (o := ⟨5, some (4, c!"f"), 1, 1, 0x200000⟩) r7 (by decide +kernel) rfl

/-! ### Examples -/

/-- Upper case of ASCII letters. -/
def asciiUpper (s : Str) : Str := s.map Char.toUpper

/-- The hypotheses of C138 are met by a session in which a directory is opened, for writing its attributes. -/
example : PlainNames (ntDemoRest [ntLast, ntThrough]) ∧ NoReparsePoints asciiUpper id ntDemoRules (ntDemoTree (.dir [])) ∧
    NtFilesRun ⟨asciiUpper, fun _ => none, false⟩ (ntDemoTree (.dir [])) (ntDemoTrace (ntDemoRest [ntLast, ntThrough]))
      ⟨ntDemoTree (.dir []), [⟨6, some (3, c!"j"), 0x100, 1, 0x200000⟩]⟩ := by
  refine ⟨ntMakes_plain, ntDemo_noReparsePoints _ _ _, ?_⟩
  have e : ntFilesAfter ⟨asciiUpper, fun _ => none, false⟩ (ntDemoTree (.dir [])) (ntDemoTrace (ntDemoRest [ntLast, ntThrough])) =
      ⟨ntDemoTree (.dir []), [⟨6, some (3, c!"j"), 0x100, 1, 0x200000⟩]⟩ := by decide +kernel
  rw [← e]
  exact ntFilesAfter_run _ _ _

/-- C138 on a session: the names of the worker are plain, no reparse point is on the way (the last name is one), and what is opened
is this reparse point, whatever the case of its name. -/
example : PlainNames (ntDemoRest [ntThrough]) ∧ (ntFilesAfter ⟨asciiUpper, fun _ => none, false⟩
      [.dir [(c!"??", 1)], .dir [(c!"c:", 2)], .dir [(c!"D", 3), (c!"S", 4)], .dir [(c!"J", 6)], .dir [], .file [], .dir [(c!"F", 7)], ntDemoLink]
      (ntDemoTrace (ntDemoRest [ntThrough]))).opened = [⟨7, some (6, c!"f"), 1, 1, 0x200000⟩] :=
  ⟨ntThrough_plain, by decide +kernel⟩

/-- The hypotheses of C138 are met by a session in which files are made, written and deleted. -/
def ntMaking : List WinIPCRequest :=
  [.ntCreateFile 0x10002 c!"\\??\\C:\\d\\n" 0 0 7 2 0 [], .ntCreateFile 0x100 c!"\\??\\C:\\d\\m" 0 0 7 3 1 []]

example : (ntFilesAfter ⟨id, fun _ => none, false⟩ (ntDemoTree (.dir [])) (ntDemoTrace (ntDemoRest ntMaking))).tree =
      [.dir [(c!"??", 1)], .dir [(c!"C:", 2)], .dir [(c!"d", 3), (c!"s", 4)], .dir [(c!"j", 6), (c!"n", 7), (c!"m", 8)], .dir [(c!"f", 5)],
       .file [1, 2], .dir [], .file [], .dir []] ∧
    (((ntFilesAfter ⟨id, fun _ => none, false⟩ (ntDemoTree (.dir [])) (ntDemoTrace (ntDemoRest ntMaking))).write 7 [3]).remove
      ⟨id, fun _ => none, false⟩ ⟨7, some (3, c!"n"), 0x10002, 2, 0x200000⟩).tree =
      [.dir [(c!"??", 1)], .dir [(c!"C:", 2)], .dir [(c!"d", 3), (c!"s", 4)], .dir [(c!"j", 6), (c!"m", 8)], .dir [(c!"f", 5)],
       .file [1, 2], .dir [], .file [3], .dir []] := by decide +kernel

/-- Dispositions, of a file which exists and of one which does not; directories which have something in them are not deleted. -/
example : (ntOpenFound [.file [1]] 0 none false 0 0).2 = [.file []] ∧ (ntOpenFound [.file [1]] 0 none false 1 0).2 = [.file [1]] ∧
    (ntOpenFound [.file [1]] 0 none false 2 0).1 = .error 0xC0000035 ∧ (ntOpenFound [.file [1]] 0 none false 3 0).2 = [.file [1]] ∧
    (ntOpenFound [.file [1]] 0 none false 4 0).2 = [.file []] ∧ (ntOpenFound [.file [1]] 0 none false 5 0).2 = [.file []] ∧
    (ntOpenFound [.dir []] 0 none true 5 0).2 = [.dir []] := by decide +kernel

example : (ntOpenFound [.file [1]] 0 none true 1 0).1 = .error 0xC0000103 ∧ (ntOpenFound [.file [1]] 0 none false 1 1).1 = .error 0xC0000103 ∧
    (ntOpenFound [.dir []] 0 none true 1 1).1 = .ok (0, none) ∧ (ntOpenFound [.dir []] 0 none true 1 0x40).1 = .error 0xC00000BA ∧
    (ntOpenFound [.dir []] 0 none true 5 0).1 = .error 0xC00000BA := ⟨rfl, rfl, rfl, rfl, rfl⟩

example : (ntOpenMissing [.dir []] 0 c!"a" false 1 0).1 = .error 0xC0000034 ∧ (ntOpenMissing [.dir []] 0 c!"a" false 4 0).1 = .error 0xC0000034 ∧
    (ntOpenMissing [.dir []] 0 c!"a" false 0 0).2 = [.dir [(c!"a", 1)], .file []] ∧
    (ntOpenMissing [.dir []] 0 c!"a" false 2 1).2 = [.dir [(c!"a", 1)], .dir []] ∧
    (ntOpenMissing [.dir []] 0 c!"a" false 5 1).1 = .error 0xC000000D ∧ (ntOpenMissing [.dir []] 0 c!"a" true 2 0).1 = .error 0xC0000033 ∧
    (NtFileState.remove ⟨[.dir [(c!"a", 1)], .dir [(c!"b", 2)], .file []], []⟩ ⟨id, fun _ => none, false⟩ ⟨1, some (0, c!"a"), 0, 0, 0⟩).tree =
      [.dir [(c!"a", 1)], .dir [(c!"b", 2)], .file []] :=
  ⟨rfl, rfl, rfl, rfl, rfl, rfl, rfl⟩

/-- A name which does not start with a backslash, and one which is not text. -/
example : (ntCreateFile ⟨id, fun _ => none, false⟩ [.dir []] (utf16 c!"a") 1 0 none).1 = .error 0xC000003B ∧
    (ntCreateFile ⟨id, fun _ => none, false⟩ [.dir []] [0x5c, 0xD800] 1 0 none).1 = .error 0xC000003B := by decide +kernel

/-- `C138_finds` has its hypotheses met: for a path which ends with a reparse point. -/
example : PathOf c!"\\d\\j" [c!"d", c!"j"] ∧ NtNamed id [.dir [(c!"d", 1)], .dir [(c!"j", 2)], ntDemoLink] [c!"d", c!"j"] 2 ∧
    ntCreateFile ⟨id, fun _ => none, false⟩ [.dir [(c!"d", 1)], .dir [(c!"j", 2)], ntDemoLink] (utf16 c!"\\d\\j") 1 0x200000 none =
      (.ok (2, some (1, c!"j")), [.dir [(c!"d", 1)], .dir [(c!"j", 2)], ntDemoLink]) := by
  refine ⟨⟨by decide, .inl (by decide)⟩, ?_, by decide +kernel⟩
  exact .entry [c!"d"] 1 [(c!"j", 2)] c!"j" c!"j" 2 (.entry [] 0 [(c!"d", 1)] c!"d" c!"d" 1 .root rfl (by simp) rfl) rfl (by simp) rfl

end Iris
