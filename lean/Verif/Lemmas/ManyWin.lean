import Verif.Spec.ManyWin
import Verif.Props.WinFiles
import Verif.Props.WinKeys
import Verif.Props.WholeWin
/-! # Lemmas on the files and keys of all workers of a broker on Windows -/
namespace Iris
open Spec

/-! ### Events -/

theorem winDoneFor_left {T : Type} {j : Nat} {a : WinAction} {es : List (SharedEvent T)} {e : SharedEvent T}
    (hm : a ∈ winDoneFor j es) : a ∈ winDoneFor j (es ++ [e]) := by
  simp only [winDoneFor, List.filterMap_append]
  exact List.mem_append_left _ hm

theorem winDoneFor_last {T : Type} {j : Nat} {a : WinAction} {es : List (SharedEvent T)} {b c : T} :
    a ∈ winDoneFor j (es ++ [.did j a b c]) := by
  simp [winDoneFor]

/-- Splitting a list with one more at its end. -/
theorem split_last {α : Type} {es l1 l2 : List α} {x e : α} (h : es ++ [x] = l1 ++ e :: l2) :
    (∃ l3, l2 = l3 ++ [x] ∧ es = l1 ++ e :: l3) ∨ (l2 = [] ∧ x = e ∧ es = l1) := by
  rcases List.eq_nil_or_concat l2 with rfl | ⟨l3, y, rfl⟩
  · right
    obtain ⟨h1, h2⟩ := List.append_inj' h rfl
    exact ⟨rfl, by simpa using h2, h1⟩
  · left
    rw [List.concat_eq_append] at h ⊢
    rw [show l1 ++ e :: (l3 ++ [y]) = (l1 ++ e :: l3) ++ [y] by simp] at h
    obtain ⟨h1, h2⟩ := List.append_inj' h rfl
    obtain rfl : x = y := by simpa using h2
    exact ⟨l3, rfl, h1⟩

/-! ### Files: one worker with all the rules -/

theorem ntCreate_shape (k : NtKernel) (fs : NtTree) (access : BitVec 32) (name : ObjectName) (disposition options : BitVec 32)
    (refuse : Option (BitVec 32)) : ∃ fs' l, (∀ opened, NtFileState.create ⟨fs, opened⟩ k access name disposition options refuse =
      ⟨fs', opened ++ l⟩) ∧ (ntCreateFile k fs name disposition options refuse).2 = fs' ∧
      ∀ o ∈ l, o.access = access ∧ o.disposition = disposition ∧ o.options = options ∧
        (ntCreateFile k fs name disposition options refuse).1 = .ok (o.file, o.place) := by
  unfold NtFileState.create
  cases h : ntCreateFile k fs name disposition options refuse with
  | mk r fs' =>
    cases r with
    | error e => exact ⟨fs', [], by simp [h], rfl, by simp⟩
    | ok x => exact ⟨fs', [⟨x.1, x.2, access, disposition, options⟩], by simp [h], rfl, by simp⟩

theorem ntWrite_shape (fs : NtTree) (i : Nat) (content : Bytes) :
    ∃ fs', (∀ opened, NtFileState.write ⟨fs, opened⟩ i content = ⟨fs', opened⟩) ∧
      (fs' = fs ∨ ∃ old, fs[i]? = some (.file old) ∧ fs' = fs.set i (.file content)) := by
  unfold NtFileState.write
  cases h : fs[i]? with
  | none => exact ⟨fs, by simp [h], .inl rfl⟩
  | some n => cases n with
    | dir e => exact ⟨fs, by simp [h], .inl rfl⟩
    | link t => exact ⟨fs, by simp [h], .inl rfl⟩
    | file b => exact ⟨_, by simp [h], .inr ⟨b, rfl, rfl⟩⟩

theorem ntRemove_shape (k : NtKernel) (fs : NtTree) (o : NtOpened) :
    ∃ fs', (∀ opened, NtFileState.remove ⟨fs, opened⟩ k o = ⟨fs', opened⟩) ∧
      (fs' = fs ∨ ∃ d c old, o.place = some (d, c) ∧ fs[d]? = some (.dir old) ∧
        fs' = fs.set d (.dir (old.filter fun e => k.upcase e.1 ≠ k.upcase c))) := by
  by_cases hp : ∃ d c old, o.place = some (d, c) ∧ fs[d]? = some (.dir old) ∧ (∀ a b, fs[o.file]? ≠ some (.dir (a :: b))) ∧
      k.lookup old c = some o.file
  · obtain ⟨d, c, old, h1, h2, h3, h4⟩ := hp
    refine ⟨_, fun opened => ?_, .inr ⟨d, c, old, h1, h2, rfl⟩⟩
    unfold NtFileState.remove
    simp only [h1, h2]
    cases h : fs[o.file]? with
    | none => simp [h4]
    | some n =>
      cases n with
      | file b => simp [h4]
      | link t => simp [h4]
      | dir e => cases e with
        | nil => simp [h4]
        | cons a b => exact absurd h (h3 a b)
  · refine ⟨fs, fun opened => ?_, .inl rfl⟩
    unfold NtFileState.remove
    split
    · rfl
    · rename_i d c hpl
      split
      · rfl
      · rename_i e hd hne
        split
        · rename_i hl
          exact (hp ⟨d, c, e, hpl, hd, fun a b hab => by first | exact hne a b hab | exact hne a b hd hab, hl⟩).elim
        · rfl
      · rfl

theorem manyNt_one {k : NtKernel} {fs : NtTree} {es : List (SharedEvent NtTree)} {st : SharedBy NtTree NtOpened}
    (hr : ManyNtRun k fs es st) (hk : k.linkable = false) :
    ∃ acts opened, NtFilesRun k fs acts ⟨st.tree, opened⟩ ∧ (∀ j, ∀ o ∈ st.opened j, o ∈ opened) ∧
      ∀ a ∈ acts, ∃ j b c, .did j a b c ∈ es := by
  induction hr with
  | start => exact ⟨[], [], .start, by simp, by simp⟩
  | creates es st j access name allocation attributes share disposition options ea r refuse _ ih =>
    obtain ⟨acts, opened, h1, h2, h3⟩ := ih
    obtain ⟨fs', l, hs, _, _⟩ := ntCreate_shape k st.tree access name disposition options refuse
    have := NtFilesRun.creates acts _ access name allocation attributes share disposition options ea r refuse h1
    rw [hs] at this
    simp only [SharedBy.onFiles, hs]
    refine ⟨_, _, this, fun j' o ho => ?_, fun a ha => ?_⟩
    · split at ho
      · rename_i e
        subst e
        rcases List.mem_append.1 ho with x | x
        · exact List.mem_append_left _ (h2 _ o x)
        · exact List.mem_append_right _ x
      · exact List.mem_append_left _ (h2 _ o ho)
    · rcases List.mem_append.1 ha with x | x
      · obtain ⟨j', b, c, hm⟩ := h3 a x
        exact ⟨j', b, c, List.mem_append_left _ hm⟩
      · obtain rfl := List.mem_singleton.1 x
        exact ⟨j, _, _, List.mem_append_right _ (List.mem_singleton.2 rfl)⟩
  | others es st j a _ ha ih =>
    obtain ⟨acts, opened, h1, h2, h3⟩ := ih
    refine ⟨acts, opened, h1, h2, fun a ha => ?_⟩
    obtain ⟨j', b, c, hm⟩ := h3 a ha
    exact ⟨j', b, c, List.mem_append_left _ hm⟩
  | writes es st j o content _ ho hw ih =>
    obtain ⟨acts, opened, h1, h2, h3⟩ := ih
    obtain ⟨fs', hs, _⟩ := ntWrite_shape st.tree o.file content
    have := NtFilesRun.writes acts _ o content h1 (h2 j o ho) hw
    rw [hs] at this
    simp only [SharedBy.onFiles, hs]
    refine ⟨_, _, this, fun j' o' ho' => ?_, fun a ha => ?_⟩
    · split at ho'
      · exact h2 _ _ ho'
      · exact h2 _ _ ho'
    · obtain ⟨j', b, c, hm⟩ := h3 a ha
      exact ⟨j', b, c, List.mem_append_left _ hm⟩
  | removes es st j o _ ho hd ih =>
    obtain ⟨acts, opened, h1, h2, h3⟩ := ih
    obtain ⟨fs', hs, _⟩ := ntRemove_shape k st.tree o
    have := NtFilesRun.removes acts _ o h1 (h2 j o ho) hd
    rw [hs] at this
    simp only [SharedBy.onFiles, hs]
    refine ⟨_, _, this, fun j' o' ho' => ?_, fun a ha => ?_⟩
    · split at ho'
      · exact h2 _ _ ho'
      · exact h2 _ _ ho'
    · obtain ⟨j', b, c, hm⟩ := h3 a ha
      exact ⟨j', b, c, List.mem_append_left _ hm⟩
  | relinks es st j o target _ ho hk' => rw [hk] at hk'; cases hk'

/-- A call for a request the rules allow. -/
def NtGranted (full : Str → Str) (h : List WinCall) (access share disposition options : BitVec 32) (ea : Bytes) (path : Str) : Prop :=
  options &&& 0x2000#32 = 0#32 ∧ Has options 0x200000 ∧ (∃ right, Given full h right path) ∧
    ∀ right, Asks access share disposition options ea right → Given full h right path

theorem given_mono {full : Str → Str} {h h' : List WinCall} (hh : ∀ c ∈ h, c ∈ h') {right : Right} {path : Str}
    (hg : Given full h right path) : Given full h' right path := by
  obtain ⟨c, hc, hg⟩ := hg
  exact ⟨c, hh _ hc, hg⟩

theorem given_union {full : Str → Str} {h : Nat → List WinCall} {js : List Nat} {right : Right} {path : Str}
    (hg : Given full (js.flatMap h) right path) : ∃ j ∈ js, Given full (h j) right path := by
  obtain ⟨c, hc, hg⟩ := hg
  obtain ⟨j, hj, hc⟩ := List.mem_flatMap.1 hc
  exact ⟨j, hj, c, hc, hg⟩

theorem noReparsePoints_union {up full : Str → Str} {h : Nat → List WinCall} {fs : NtTree} (js : List Nat)
    (hl : ∀ j, NoReparsePoints up full (h j) fs) : NoReparsePoints up full (js.flatMap h) fs := by
  intro right path cs ds i t hg
  obtain ⟨j, _, hg⟩ := given_union hg
  exact hl j right path cs ds i t hg

theorem Spec.NtMayHaveDone.noReparsePoints_other {up full : Str → Str} {h h' : List WinCall} {fs fs' : NtTree}
    (hd : NtMayHaveDone up full h fs fs') (hl : NoReparsePoints up full h' fs) : NoReparsePoints up full h' fs' := by
  intro right path cs ds i t hg hp hpre hne hn hi
  have h1 := hd.link hi
  have hlt := (List.getElem?_eq_some_iff.1 h1).1
  exact hl right path cs ds i t hg hp hpre hne ((hd.named hn).resolve_left (by omega)) h1

theorem manyNt_done {k : NtKernel} {full : Str → Str} {h : Nat → List WinCall} {fs : NtTree} {es : List (SharedEvent NtTree)}
    {st : SharedBy NtTree NtOpened} (hr : ManyNtRun k fs es st) (hk : k.linkable = false)
    (hl : ∀ j, NoReparsePoints k.upcase full (h j) fs)
    (hg : ∀ j access name allocation attributes share disposition options ea r,
      WinAction.called (.createFile access name allocation attributes share disposition options ea) r ∈ winDoneFor j es →
      ∃ path, name = utf16 path ∧ NtGranted full (h j) access share disposition options ea path)
    {js : List Nat} (hjs : ∀ e ∈ es, ∀ j, WinChangeBy j e → j ∈ js) :
    NtMayHaveDone k.upcase full (js.flatMap h) fs st.tree := by
  obtain ⟨acts, opened, h1, _, h3⟩ := manyNt_one hr hk
  refine (ntFilesRun_ok h1 hk (noReparsePoints_union js hl) ?_).1
  intro access name allocation attributes share disposition options ea r hm
  obtain ⟨j, b, c, hm⟩ := h3 _ hm
  have hj := hjs _ hm j (.inl ⟨_, _, _, rfl⟩)
  obtain ⟨path, h1, h2, h3, ⟨right, h4⟩, h5⟩ := hg j access name allocation attributes share disposition options ea r
    (List.mem_filterMap.2 ⟨_, hm, by simp⟩)
  have hmono : ∀ c ∈ h j, c ∈ js.flatMap h := fun c hc => List.mem_flatMap.2 ⟨j, hj, hc⟩
  exact ⟨path, h1, h2, h3, ⟨right, given_mono hmono h4⟩, fun right hr => given_mono hmono (h5 right hr)⟩

/-- All who did something. -/
def sharedWho {T : Type} (es : List (SharedEvent T)) : List Nat :=
  es.map fun e => match e with | .did j _ _ _ => j | .acted j _ _ => j

theorem mem_sharedWho {T : Type} {es : List (SharedEvent T)} : ∀ e ∈ es, ∀ j, WinChangeBy j e → j ∈ sharedWho es := by
  intro e he j hc
  refine List.mem_map.2 ⟨e, he, ?_⟩
  rcases hc with ⟨a, b, c, rfl⟩ | ⟨b, c, rfl⟩ <;> rfl

/-! ### Files: each worker -/

theorem Spec.NtNamed.kept {up : Str → Str} {fs fs' : NtTree}
    (hk : ∀ (d : Nat) e, fs[d]? = some (.dir e) → ∃ e', fs'[d]? = some (.dir e') ∧ ∀ x ∈ e, x ∈ e') {cs : List Str} {i : Nat}
    (hn : NtNamed up fs cs i) : NtNamed up fs' cs i := by
  induction hn with
  | root => exact .root
  | entry cs d e n c i _ hd hm hc ih =>
    obtain ⟨e', h1, h2⟩ := hk d e hd
    exact .entry cs d e' n c i ih h1 (h2 _ hm) hc

theorem ntSet_kept {fs : NtTree} {i : Nat} {n m : NtNode} (hi : fs[i]? = some n) (hn : ∀ e, n ≠ .dir e) :
    ∀ (d : Nat) e, fs[d]? = some (.dir e) → ∃ e', (fs.set i m)[d]? = some (.dir e') ∧ ∀ x ∈ e, x ∈ e' := by
  intro d e hd
  have hne : i ≠ d := by
    rintro rfl
    rw [hi] at hd
    exact hn e (by simpa using hd)
  exact ⟨e, by rw [List.getElem?_set_ne hne]; exact hd, fun x h => h⟩

theorem ntAdd_kept {fs : NtTree} {d : Nat} {c : Str} {n : NtNode} :
    ∀ (d' : Nat) e, fs[d']? = some (.dir e) → ∃ e', (fs.add d c n)[d']? = some (.dir e') ∧ ∀ x ∈ e, x ∈ e' := by
  intro d' e hd
  have hlt := (List.getElem?_eq_some_iff.1 hd).1
  unfold NtTree.add
  split
  · rename_i e0 h0
    have hl : d' < (List.set fs d (.dir (e0 ++ [(c, List.length fs)]))).length := by simpa using hlt
    rw [List.getElem?_append_left hl]
    by_cases e1 : d = d'
    · subst e1
      rw [h0] at hd
      cases hd
      refine ⟨_, List.getElem?_set_self hlt, fun x hx => List.mem_append_left _ hx⟩
    · exact ⟨e, by rw [List.getElem?_set_ne e1]; exact hd, fun x h => h⟩
  · exact ⟨e, hd, fun x h => h⟩

/-- A file can only be missing from a directory. -/
theorem ntWalkWith_missing_dir {k : NtKernel} {fs : NtTree} {follow : Bool} {again : List Str → NtWalk}
    (ha : ∀ l d c, again l = .missing d c → ∃ e, fs[d]? = some (.dir e)) : ∀ (cs : List Str) (cur : Nat) (place : Option (Nat × Str)) d c,
      ntWalkWith k fs follow again cur place cs = .missing d c → ∃ e, fs[d]? = some (.dir e) := by
  intro cs
  induction cs with
  | nil => intro cur place d c h; cases h
  | cons c0 rest ih =>
    intro cur place d c h
    simp only [ntWalkWith] at h
    split at h
    · rename_i e he
      split at h
      · cases h
      · split at h
        · split at h
          · cases h; exact ⟨e, he⟩
          · cases h
        · split at h
          · split at h
            · cases h
            · exact ha _ _ _ h
          · exact ih _ _ _ _ h
          · cases h
    · cases h

theorem ntWalkLinks_missing_dir {k : NtKernel} {fs : NtTree} {follow : Bool} {n : Nat} : ∀ {cs : List Str} {d : Nat} {c : Str},
    ntWalkLinks k fs follow n cs = .missing d c → ∃ e, fs[d]? = some (.dir e) := by
  induction n with
  | zero => exact fun h => ntWalkWith_missing_dir (fun l d c h => by cases h) _ _ _ _ _ h
  | succ n ih => exact fun h => ntWalkWith_missing_dir (fun l d c h => ih h) _ _ _ _ _ h

/-- What is opened by a path without reparse points has this path. -/
theorem ntCreate_named {k : NtKernel} {full : Str → Str} {h : List WinCall} {fs : NtTree} {path : Str}
    {disposition options : BitVec 32} (refuse : Option (BitVec 32))
    (hl : NoReparsePoints k.upcase full h fs) (hg : ∃ right, Given full h right path) (hid : options &&& 0x2000#32 = 0#32)
    (hrp : Has options 0x200000) (i : Nat) (place : Option (Nat × Str))
    (hi : (ntCreateFile k fs (utf16 path) disposition options refuse).1 = .ok (i, place)) :
    ∃ cs, PathOf path cs ∧ NtNamed k.upcase (ntCreateFile k fs (utf16 path) disposition options refuse).2 cs i ∧
      ∀ d c, place = some (d, c) → ∃ init, cs = init ++ [c] ∧
        NtNamed k.upcase (ntCreateFile k fs (utf16 path) disposition options refuse).2 init d := by
  unfold ntCreateFile at hi ⊢
  cases refuse with
  | some e => cases hi
  | none =>
    have hf : decide (options &&& FILE_FLAG_OPEN_REPARSE_POINT = 0#32) = false := decide_eq_false hrp
    simp only [if_neg (show ¬ (options &&& 0x2000#32 ≠ 0#32) from fun x => x hid), fromUtf16_utf16, Option.bind_some, hf] at hi ⊢
    cases hnames : ntNames path with
    | none => rw [hnames] at hi; cases hi
    | some x =>
      obtain ⟨cs, slash⟩ := x
      rw [hnames] at hi
      simp only [] at hi ⊢
      by_cases hne : ∀ c ∈ cs, c ≠ []
      · have hp := ntNames_pathOf hnames hne
        have hwalk := ntWalkLinks_named (k := k) (fs := fs) 63 (cs := cs) (fun ds i t hpre hne' hn => by
          obtain ⟨right, hr⟩ := hg
          exact hl right path cs ds i t hr hp hpre hne' hn)
        cases hr : ntWalkLinks k fs false 63 cs with
        | failed e => rw [hr] at hi; cases hi
        | missing d c =>
          rw [hr] at hi
          obtain ⟨_, init, h1, h2⟩ := hwalk.2 d c hr
          have hdir : ∃ e, fs[d]? = some (.dir e) := ntWalkLinks_missing_dir hr
          obtain ⟨e, hdir⟩ := hdir
          have hadd : ∀ n, NtNamed k.upcase (fs.add d c n) cs (List.length fs) ∧
              ∀ d' c', some (d, c) = some (d', c') → ∃ init, cs = init ++ [c'] ∧ NtNamed k.upcase (fs.add d c n) init d' := by
            intro n
            have hn := h2.kept (ntAdd_kept (fs := fs) (d := d) (c := c) (n := n))
            refine ⟨?_, fun d' c' he => by cases he; exact ⟨init, h1, hn⟩⟩
            rw [h1]
            refine .entry init d (e ++ [(c, List.length fs)]) c c _ hn ?_ (by simp) rfl
            have hlt := (List.getElem?_eq_some_iff.1 hdir).1
            unfold NtTree.add
            rw [hdir]
            simp only []
            rw [List.getElem?_append_left (by simpa using hlt), List.getElem?_set_self hlt]
          simp only [ntOpenMissing] at hi ⊢
          split at hi
          · cases hi
          · rename_i q1
            rw [if_neg q1]
            split at hi
            · rename_i q2
              rw [if_pos q2]
              split at hi
              · rename_i q3
                rw [if_pos q3]
                cases hi
                exact ⟨cs, hp, hadd _⟩
              · cases hi
            · rename_i q2
              rw [if_neg q2]
              split at hi
              · cases hi
              · rename_i q3
                rw [if_neg q3]
                cases hi
                exact ⟨cs, hp, hadd _⟩
        | found i' place' =>
          rw [hr] at hi
          obtain ⟨_, h1, h2⟩ := hwalk.1 i' place' hr
          have hset : ∀ n m, fs[i']? = some n → (∀ e, n ≠ .dir e) → NtNamed k.upcase (fs.set i' m) cs i' ∧
              ∀ d c, place' = some (d, c) → ∃ init, cs = init ++ [c] ∧ NtNamed k.upcase (fs.set i' m) init d := by
            intro n m hn hnd
            refine ⟨h1.kept (ntSet_kept hn hnd), fun d c he => ?_⟩
            obtain ⟨init, x, y⟩ := h2 d c he
            exact ⟨init, x, y.kept (ntSet_kept hn hnd)⟩
          simp only [ntOpenFound] at hi ⊢
          split at hi
          · cases hi
          · rename_i q1
            rw [if_neg q1]
            cases hn : fs[i']? with
            | none => rw [hn] at hi; cases hi
            | some n =>
              rw [hn] at hi
              cases n with
              | dir e =>
                simp only [] at hi ⊢
                split at hi
                · rename_i q2
                  rw [if_pos q2]
                  cases hi
                  exact ⟨cs, hp, h1, h2⟩
                · cases hi
              | file b =>
                simp only [] at hi ⊢
                split at hi
                · cases hi
                · rename_i q2
                  rw [if_neg q2]
                  split at hi
                  · rename_i q3
                    rw [if_pos q3]
                    cases hi
                    exact ⟨cs, hp, h1, h2⟩
                  · rename_i q3
                    rw [if_neg q3]
                    cases hi
                    exact ⟨cs, hp, hset _ _ hn (fun e he => by cases he)⟩
              | link t =>
                simp only [] at hi ⊢
                split at hi
                · cases hi
                · rename_i q2
                  rw [if_neg q2]
                  split at hi
                  · rename_i q3
                    rw [if_pos q3]
                    cases hi
                    exact ⟨cs, hp, h1, h2⟩
                  · rename_i q3
                    rw [if_neg q3]
                    cases hi
                    exact ⟨cs, hp, hset _ _ hn (fun e he => by cases he)⟩
      · exfalso
        simp only [Classical.not_forall, Classical.not_not] at hne
        obtain ⟨c, hm, rfl⟩ := hne
        obtain ⟨e, he⟩ := ntWalkLinks_empty (k := k) (fs := fs) false 63 cs hm
        rw [he] at hi
        cases hi

/-- A file a worker has: how it was opened, and what it was then. -/
def NtHas (up full : Str → Str) (h : List WinCall) (es : List (SharedEvent NtTree)) (j : Nat) (o : NtOpened) : Prop :=
  ∃ path cs allocation attributes share ea r before tree,
    .did j (.called (.createFile o.access (utf16 path) allocation attributes share o.disposition o.options ea) r) before tree ∈ es ∧
    PathOf path cs ∧ NtNamed up tree cs o.file ∧
    (∀ d c, o.place = some (d, c) → ∃ init, cs = init ++ [c] ∧ NtNamed up tree init d) ∧
    NtGranted full h o.access share o.disposition o.options ea path

/-- What an event may have done, after those before it. -/
def NtEventOk (up full : Str → Str) (h : Nat → List WinCall) (l1 : List (SharedEvent NtTree)) (e : SharedEvent NtTree) : Prop :=
  (∀ j a before after, e = .did j a before after → NtMayHaveDone up full (h j) before after) ∧
  ∀ j before after, e = .acted j before after →
    NtMayAct up (fun i => ∃ tree, OpenedIn j l1 tree ∧ NtMayWrite up full (h j) tree i)
      (fun d c => ∃ tree, OpenedIn j l1 tree ∧ NtMayEnter up full (h j) tree d c) before after

theorem NtHas.more {up full : Str → Str} {h : List WinCall} {es : List (SharedEvent NtTree)} {j : Nat} {o : NtOpened}
    (hh : NtHas up full h es j o) (e : SharedEvent NtTree) : NtHas up full h (es ++ [e]) j o := by
  obtain ⟨path, cs, allocation, attributes, share, ea, r, before, tree, hm, rest⟩ := hh
  exact ⟨path, cs, allocation, attributes, share, ea, r, before, tree, List.mem_append_left _ hm, rest⟩

theorem manyNt_each {k : NtKernel} {full : Str → Str} {h : Nat → List WinCall} {fs : NtTree} {es : List (SharedEvent NtTree)}
    {st : SharedBy NtTree NtOpened} (hr : ManyNtRun k fs es st) (hk : k.linkable = false)
    (hl : ∀ j, NoReparsePoints k.upcase full (h j) fs)
    (hg : ∀ j access name allocation attributes share disposition options ea r,
      WinAction.called (.createFile access name allocation attributes share disposition options ea) r ∈ winDoneFor j es →
      ∃ path, name = utf16 path ∧ NtGranted full (h j) access share disposition options ea path) :
    (∀ j, ∀ o ∈ st.opened j, NtHas k.upcase full (h j) es j o) ∧
    ∀ l1 e l2, es = l1 ++ e :: l2 → NtEventOk k.upcase full h l1 e := by
  induction hr with
  | start => exact ⟨by simp, fun l1 e l2 he => by simp at he⟩
  | others es st j a _ _ ih =>
    obtain ⟨h1, h2⟩ := ih fun j _ _ _ _ _ _ _ _ _ hm => hg j _ _ _ _ _ _ _ _ _ (winDoneFor_left hm)
    refine ⟨fun j' o ho => (h1 j' o ho).more _, fun l1 e l2 he => ?_⟩
    rcases split_last he with ⟨l3, _, he⟩ | ⟨_, rfl, rfl⟩
    · exact h2 l1 e l3 he
    · exact ⟨fun j a b c he => by cases he; exact .refl, fun j b c he => by cases he⟩
  | creates es st j access name allocation attributes share disposition options ea r refuse hrun ih =>
    have hg' : ∀ j access name allocation attributes share disposition options ea r,
      WinAction.called (.createFile access name allocation attributes share disposition options ea) r ∈ winDoneFor j es →
      ∃ path, name = utf16 path ∧ NtGranted full (h j) access share disposition options ea path :=
      fun j _ _ _ _ _ _ _ _ _ hm => hg j _ _ _ _ _ _ _ _ _ (winDoneFor_left hm)
    obtain ⟨h1, h2⟩ := ih hg'
    have hnow := (manyNt_done hrun hk hl hg' mem_sharedWho).noReparsePoints_other (hl j)
    obtain ⟨path, rfl, g1, g2, g3, g4⟩ := hg j access name allocation attributes share disposition options ea r winDoneFor_last
    obtain ⟨fs', l, hs, ht, ho⟩ := ntCreate_shape k st.tree access (utf16 path) disposition options refuse
    have hstep := (ntCreate_step (disposition := disposition) refuse .refl hnow g3 g1 g2 (fun hd => g4 .write (.inr (.inl hd)))).1
    rw [ht] at hstep
    simp only [SharedBy.onFiles, hs] at hg ⊢
    refine ⟨fun j' o hm => ?_, fun l1 e l2 he => ?_⟩
    · split at hm
      · rename_i e
        subst e
        rcases List.mem_append.1 hm with x | x
        · exact (h1 _ o x).more _
        · obtain ⟨rfl, rfl, rfl, hok⟩ := ho o x
          obtain ⟨cs, a, b, c⟩ := ntCreate_named refuse hnow g3 g1 g2 _ _ hok
          rw [ht] at b c
          exact ⟨path, cs, allocation, attributes, share, ea, r, st.tree, fs',
            List.mem_append_right _ (List.mem_singleton.2 rfl), a, b, c, g1, g2, g3, g4⟩
      · exact (h1 _ o hm).more _
    · rcases split_last he with ⟨l3, _, he⟩ | ⟨_, rfl, rfl⟩
      · exact h2 l1 e l3 he
      · exact ⟨fun j a b c he => by cases he; exact hstep, fun j b c he => by cases he⟩
  | writes es st j o content _ ho hw ih =>
    obtain ⟨h1, h2⟩ := ih fun j _ _ _ _ _ _ _ _ _ hm => hg j _ _ _ _ _ _ _ _ _ (winDoneFor_left hm)
    obtain ⟨fs', hs, hch⟩ := ntWrite_shape st.tree o.file content
    simp only [SharedBy.onFiles, hs]
    refine ⟨fun j' o' ho' => ?_, fun l1 e l2 he => ?_⟩
    · split at ho'
      · exact (h1 _ o' (by simpa using ‹j' = j› ▸ ho')).more _
      · exact (h1 _ o' ho').more _
    · rcases split_last he with ⟨l3, _, he⟩ | ⟨_, rfl, rfl⟩
      · exact h2 l1 e l3 he
      · refine ⟨fun j a b c he => (by cases he), fun j' b c he => ?_⟩
        cases he
        rcases hch with rfl | ⟨old, hi, rfl⟩
        · exact .inl rfl
        · obtain ⟨path, cs, allocation, attributes, share, ea, r, before, tree, hm, hp, hn, _, _, _, _, g4⟩ := h1 j o ho
          refine .inr (.inl ⟨o.file, old, content, ⟨tree, ⟨_, _, hm⟩, path, cs, g4 .write (.inl ?_), hp, hn⟩, hi, rfl⟩)
          obtain ⟨b, hb, hb'⟩ := hw
          exact ⟨b, by simp at hb ⊢; omega, hb'⟩
  | removes es st j o _ ho hd ih =>
    obtain ⟨h1, h2⟩ := ih fun j _ _ _ _ _ _ _ _ _ hm => hg j _ _ _ _ _ _ _ _ _ (winDoneFor_left hm)
    obtain ⟨fs', hs, hch⟩ := ntRemove_shape k st.tree o
    simp only [SharedBy.onFiles, hs]
    refine ⟨fun j' o' ho' => ?_, fun l1 e l2 he => ?_⟩
    · split at ho'
      · exact (h1 _ o' (by simpa using ‹j' = j› ▸ ho')).more _
      · exact (h1 _ o' ho').more _
    · rcases split_last he with ⟨l3, _, he⟩ | ⟨_, rfl, rfl⟩
      · exact h2 l1 e l3 he
      · refine ⟨fun j a b c he => (by cases he), fun j' b c he => ?_⟩
        cases he
        rcases hch with rfl | ⟨d, c, old, hpl, hi, rfl⟩
        · exact .inl rfl
        · obtain ⟨path, cs, allocation, attributes, share, ea, r, before, tree, hm, hp, _, hplace, _, _, _, g4⟩ := h1 j o ho
          obtain ⟨init, rfl, hn⟩ := hplace d c hpl
          refine .inr (.inr ⟨d, c, old, ⟨tree, ⟨_, _, hm⟩, path, init, c, g4 .write ?_, hp, rfl, hn⟩, hi, rfl⟩)
          rcases hd with ⟨b, hb, hb'⟩ | hd
          · exact .inl ⟨b, by simp at hb ⊢; omega, hb'⟩
          · exact .inr (.inr (.inl hd))
  | relinks es st j o target _ ho hk' => rw [hk] at hk'; cases hk'

/-- The calls made for the workers of a broker, which name files plainly. -/
theorem manyNt_granted {os : WinOs} {full : Str → Str} (hos : FullNames os full) {h : Nat → List WinCall} {w w' : WholeWin}
    {ls : List WholeWinEvent} {es : List (SharedEvent NtTree)} (hn : NoWinWorkers w)
    (he : WholeWinExec false DeclaredHandle w ls w') (hrules : WinRulesAre os h w' ls) (hev : WinEventsOf w' es)
    (hp : AllPlainNames ls) (j : Nat) (access : BitVec 32) (name : ObjectName) (allocation : BitVec 64)
    (attributes share disposition options : BitVec 32) (ea : Bytes) (r : NtResult)
    (hm : WinAction.called (.createFile access name allocation attributes share disposition options ea) r ∈ winDoneFor j es) :
    ∃ path, name = utf16 path ∧ NtGranted full (h j) access share disposition options ea path := by
  rw [hev j] at hm
  cases ht : w'.threads j with
  | none => rw [ht] at hm; cases hm
  | some th =>
    rw [ht] at hm
    obtain ⟨c, los, before, hmade⟩ := hrules j th ht
    obtain ⟨inc, wos, s, q, h1, h2, ⟨ask, h3, h4⟩, h5⟩ := C139_calls false w w' ls hn he j c _ los before hmade th ht _ r hm
    cases q with
    | initialization => cases h5
    | ntCreateKey a b c d e create => cases create <;> simp [winCallFor] at h5
    | ntCreateFile access' path allocation' attributes' share' disposition' options' ea' =>
      simp only [winCallFor, Option.some.injEq, NtCall.createFile.injEq] at h5
      obtain ⟨rfl, rfl, rfl, rfl, rfl, rfl, rfl, rfl⟩ := h5
      simp only [winAsked, Option.some.injEq] at h3
      subst h3
      obtain ⟨hlen, hid⟩ := hp j (inc, wos) (List.mem_filterMap.2 ⟨_, h1, by simp⟩) _ _ _ _ _ _ _ _ h2
      obtain ⟨g1, _, g3, g4⟩ := C58_no_excess_access false os full hos (h j) path _ _ _ _ _ _ (.inl rfl) h4
      refine ⟨path, cutName_short hlen, ?_, g1.2.2.1, g3, g4⟩
      have hid : options' &&& 0x2000#32 = 0#32 := Classical.not_not.1 hid
      have e : (options' ||| 0x200000#32) &&& 0x2000#32 = (options' &&& 0x2000#32) ||| (0x200000#32 &&& 0x2000#32) := by
        apply BitVec.eq_of_getLsbD_eq
        intro j _
        simp only [BitVec.getLsbD_and, BitVec.getLsbD_or]
        cases options'.getLsbD j <;> cases (0x200000#32).getLsbD j <;> cases (0x2000#32).getLsbD j <;> rfl
      rw [e, hid]
      decide

/-- All files there were when something was done. -/
theorem manyNt_then {k : NtKernel} {fs : NtTree} {es : List (SharedEvent NtTree)} {st : SharedBy NtTree NtOpened}
    (hr : ManyNtRun k fs es st) {j : Nat} {a : WinAction} {before tree : NtTree} (hm : .did j a before tree ∈ es) :
    ∃ es' st', ManyNtRun k fs es' st' ∧ st'.tree = tree ∧ ∀ e ∈ es', e ∈ es := by
  induction hr with
  | start => cases hm
  | creates es st j' access name allocation attributes share disposition options ea r refuse hrun ih =>
    rcases List.mem_append.1 hm with hm | hm
    · obtain ⟨es', st', h1, h2, h3⟩ := ih hm
      exact ⟨es', st', h1, h2, fun e he => List.mem_append_left _ (h3 e he)⟩
    · cases List.mem_singleton.1 hm
      exact ⟨_, _, .creates es st j access name allocation attributes share disposition options ea r refuse hrun, rfl, fun e h => h⟩
  | others es st j' a' hrun ha ih =>
    rcases List.mem_append.1 hm with hm | hm
    · obtain ⟨es', st', h1, h2, h3⟩ := ih hm
      exact ⟨es', st', h1, h2, fun e he => List.mem_append_left _ (h3 e he)⟩
    · cases List.mem_singleton.1 hm
      exact ⟨_, _, .others es st j a hrun ha, rfl, fun e h => h⟩
  | writes es st j' o content hrun ho hw ih =>
    rcases List.mem_append.1 hm with hm | hm
    · obtain ⟨es', st', h1, h2, h3⟩ := ih hm
      exact ⟨es', st', h1, h2, fun e he => List.mem_append_left _ (h3 e he)⟩
    · cases List.mem_singleton.1 hm
  | removes es st j' o hrun ho hd ih =>
    rcases List.mem_append.1 hm with hm | hm
    · obtain ⟨es', st', h1, h2, h3⟩ := ih hm
      exact ⟨es', st', h1, h2, fun e he => List.mem_append_left _ (h3 e he)⟩
    · cases List.mem_singleton.1 hm
  | relinks es st j' o target hrun ho hk hw ih =>
    rcases List.mem_append.1 hm with hm | hm
    · obtain ⟨es', st', h1, h2, h3⟩ := ih hm
      exact ⟨es', st', h1, h2, fun e he => List.mem_append_left _ (h3 e he)⟩
    · cases List.mem_singleton.1 hm

theorem winDoneFor_sub {T : Type} {j : Nat} {a : WinAction} {es es' : List (SharedEvent T)} (hs : ∀ e ∈ es', e ∈ es)
    (hm : a ∈ winDoneFor j es') : a ∈ winDoneFor j es := by
  obtain ⟨e, h1, h2⟩ := List.mem_filterMap.1 hm
  exact List.mem_filterMap.2 ⟨e, hs e h1, h2⟩

end Iris
