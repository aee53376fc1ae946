import Verif.Spec.ManyFiles
import Verif.Props.Files
import Verif.Props.WholeBroker
/-! # Lemmas on the files of all workers of a broker -/
namespace Iris
open Spec

/-- What one worker may have done leads to no link, in the way of no worker. -/
theorem Spec.MayHaveDone.noLinks_other {h h' : List Call} {own : List (Nat × BitVec 32)} {fs fs' : FileTree}
    (hd : MayHaveDone h own fs fs') (hl : NoLinks h' fs) : NoLinks h' fs' := by
  intro cs ds i t ha hp hn hi
  by_cases hlt : i < List.length fs
  · obtain ⟨n', e1, m1⟩ := hd.1 i fs[i] (List.getElem?_eq_getElem hlt)
    rw [hi] at e1
    cases e1
    have hg := List.getElem?_eq_getElem hlt
    generalize fs[i] = n at m1 hg
    cases m1
    exact hl cs ds i t ha hp (hd.named_old hn (.inl hlt)) hg
  · obtain ⟨c, hc⟩ := hd.2 i _ (by omega) hi
    cases hc

/-- More rules, more files. -/
theorem Spec.MayHaveDone.mono {h h' : List Call} {own own' : List (Nat × BitVec 32)} {fs fs' : FileTree}
    (hd : MayHaveDone h own fs fs') (hh : ∀ c ∈ h, c ∈ h') (ho : ∀ f ∈ own, f ∈ own') : MayHaveDone h' own' fs fs' := by
  have hw : ∀ cs, WriteAllowed h cs → WriteAllowed h' cs := fun cs ⟨c, hc, hg⟩ => ⟨c, hh _ hc, hg⟩
  refine ⟨fun i n hn => ?_, hd.2⟩
  obtain ⟨n', h1, h2⟩ := hd.1 i n hn
  refine ⟨n', h1, ?_⟩
  cases h2 with
  | same => exact .same _
  | content a b hc =>
    refine .content a b ?_
    rcases hc with ⟨cs, x, y⟩ | ⟨fl, x, y⟩
    · exact .inl ⟨cs, x, hw cs y⟩
    · exact .inr ⟨fl, ho _ x, y⟩
  | entries old new p hnew =>
    refine .entries old new p fun c j hm => ?_
    obtain ⟨a, b, cs, x, y⟩ := hnew c j hm
    exact ⟨a, b, cs, x, hw _ y⟩

/-- What is known of the files, of those each worker has, and of each event. -/
structure ManyOk (h : Nat → List Call) (given : Nat → List (Nat × BitVec 32)) (es : List FilesEvent) (st : ManyFiles) : Prop where
  sound : SoundTree st.tree
  links : ∀ j, NoLinks (h j) st.tree
  files : ∀ j i flags, (i, flags) ∈ st.opened j → (i, flags) ∈ given j ∨ FileAllowed (h j) st.tree i flags
  events : ∀ e ∈ es, ∀ j before after, ChangeBy j e before after → MayHaveDone (h j) (given j) before after

theorem Spec.FileAllowed.after {h h' : List Call} {own : List (Nat × BitVec 32)} {fs fs' : FileTree} {i : Nat} {flags : BitVec 32}
    (ha : FileAllowed h' fs i flags) (hd : MayHaveDone h own fs fs') : FileAllowed h' fs' i flags := by
  obtain ⟨cs, x, y⟩ := ha
  exact ⟨cs, hd.named_new x, y⟩

/-- An event keeps what is known. -/
theorem ManyOk.next {h : Nat → List Call} {given : Nat → List (Nat × BitVec 32)} {es : List FilesEvent} {st : ManyFiles}
    (ok : ManyOk h given es st) {e : FilesEvent} {k : Nat} {f : FileState → FileState}
    (he : ∀ j before after, ChangeBy j e before after → j = k ∧ before = st.tree ∧ after = (st.on k f).tree)
    (hd : MayHaveDone (h k) (given k) st.tree (st.on k f).tree) (hs : SoundTree (st.on k f).tree)
    (hf : ∀ i flags, (i, flags) ∈ (f ⟨st.tree, st.opened k⟩).opened → (i, flags) ∈ st.opened k ∨ (i, flags) ∈ given k ∨
      FileAllowed (h k) (st.on k f).tree i flags) : ManyOk h given (es ++ [e]) (st.on k f) where
  sound := hs
  links := fun j => hd.noLinks_other (ok.links j)
  files := by
    intro j i flags hm
    have old : ∀ i flags, (i, flags) ∈ st.opened j → (i, flags) ∈ given j ∨ FileAllowed (h j) (st.on k f).tree i flags := by
      intro i flags hm
      rcases ok.files j i flags hm with x | x
      · exact .inl x
      · exact .inr (x.after hd)
    by_cases e : j = k
    · subst e
      simp only [ManyFiles.on, if_true] at hm
      rcases hf i flags hm with x | x
      · exact old i flags x
      · exact x
    · simp only [ManyFiles.on, if_neg e] at hm
      exact old i flags hm
  events := by
    intro e' hm j before after hc
    rcases List.mem_append.1 hm with hm | hm
    · exact ok.events e' hm j before after hc
    · obtain rfl := List.mem_singleton.1 hm
      obtain ⟨rfl, rfl, rfl⟩ := he j before after hc
      exact hd

theorem manyFiles_ok [Target] {h : Nat → List Call} {stray : List (Nat × BitVec 32)} {own given : Nat → List (Nat × BitVec 32)} {fs : FileTree}
    {es : List FilesEvent} {st : ManyFiles} (hr : ManyFilesRun stray fs own es st) (hs : SoundTree fs) (hl : ∀ j, NoLinks (h j) fs)
    (ho : ∀ j, ∀ f ∈ own j, f ∈ given j)
    (hx : ∀ j a extra before after, .did j a extra before after ∈ es → ∀ f ∈ extra, f ∈ given j)
    (hg : ∀ j path flags mode, Action.opened path flags mode ∈ doneFor j es → OpenAllowed (h j) path flags) :
    ManyOk h given es st := by
  have done_left : ∀ {j : Nat} {a : Action} {es : List FilesEvent} {e : FilesEvent}, a ∈ doneFor j es → a ∈ doneFor j (es ++ [e]) := by
    intro j a es e hm
    simp only [doneFor, List.filterMap_append]
    exact List.mem_append_left _ hm
  induction hr with
  | start => exact ⟨hs, hl, fun j i fl hm => .inl (ho j _ hm), fun e he => by cases he⟩
  | notifies es st j n _ ih =>
    have ok := ih (fun j a ex b c hm => hx j a ex b c (List.mem_append_left _ hm)) fun j p f m hm => hg j p f m (done_left hm)
    refine ⟨ok.sound, ok.links, ok.files, ?_⟩
    intro e' hm k before after hc
    rcases List.mem_append.1 hm with hm | hm
    · exact ok.events e' hm k before after hc
    · obtain rfl := List.mem_singleton.1 hm
      rcases hc with ⟨a, ex, hc⟩ | hc
      · cases hc; exact .refl
      · cases hc
  | sends es st j resp files extra _ hlen hstray ih =>
    have ok := ih (fun j a ex b c hm => hx j a ex b c (List.mem_append_left _ hm)) fun j p f m hm => hg j p f m (done_left hm)
    refine ok.next ?_ .refl ok.sound ?_
    · intro k before after hc
      rcases hc with ⟨a, ex, hc⟩ | hc
      · cases hc; exact ⟨rfl, rfl, rfl⟩
      · cases hc
    · intro i flags hm
      rcases List.mem_append.1 hm with hm | hm
      · exact .inl hm
      · exact .inr (.inl (hx j _ extra _ _ (List.mem_append_right _ (List.mem_singleton.2 rfl)) _ hm))
  | opens es st j path flags mode refuse _ ih =>
    have ok := ih (fun j a ex b c hm => hx j a ex b c (List.mem_append_left _ hm)) fun j p f m hm => hg j p f m (done_left hm)
    obtain ⟨_, cs, hd, ha, har, haw⟩ := hg j path flags mode (by simp [doneFor])
    have hstep := kOpen_step (h := h j) (own := given j) (flags := flags) refuse hd ok.sound
      (fun ds i t hp => ok.links j cs ds i t ha hp) haw
    have ht : (st.on j (·.open path flags refuse)).tree = (kOpen st.tree path flags refuse).2 := by
      simp only [ManyFiles.on, FileState.open]
      cases hk : kOpen st.tree path flags refuse with
      | mk r fs' => cases r <;> rfl
    refine ok.next ?_ (ht ▸ hstep.1) (ht ▸ hstep.2.1) ?_
    · intro k before after hc
      rcases hc with ⟨a, ex, hc⟩ | hc
      · cases hc; exact ⟨rfl, rfl, rfl⟩
      · cases hc
    · intro i fl hm
      rw [ht]
      have h3 := hstep.2.2
      simp only [FileState.open] at hm
      cases hk : kOpen st.tree path flags refuse with
      | mk r fs' =>
        rw [hk] at hm h3
        cases r with
        | error e => exact .inl hm
        | ok i' =>
          rcases List.mem_append.1 hm with hm | hm
          · exact .inl hm
          · simp only [List.mem_singleton, Prod.mk.injEq] at hm
            obtain ⟨rfl, rfl⟩ := hm
            exact .inr (.inr ⟨cs, h3 i rfl, ha, fun hk => har (kernelReadable_asks hk), fun hk => haw (kernelWritable_asks hk)⟩)
  | writes es st j i flags content _ hop hp hw ih =>
    have ok := ih (fun j a ex b c hm => hx j a ex b c (List.mem_append_left _ hm)) fun j p f m hm => hg j p f m (done_left hm)
    have hk : KernelWritable flags := ⟨fun h' => h' hp, hw⟩
    have hstep : MayHaveDone (h j) (given j) st.tree (st.on j (·.write i content)).tree ∧
        SoundTree (st.on j (·.write i content)).tree ∧
        (FileState.write ⟨st.tree, st.opened j⟩ i content).opened = st.opened j := by
      simp only [ManyFiles.on, FileState.write]
      cases hi : st.tree[i]? with
      | none => exact ⟨.refl, ok.sound, rfl⟩
      | some n =>
        cases n with
        | dir e p => exact ⟨.refl, ok.sound, rfl⟩
        | link t => exact ⟨.refl, ok.sound, rfl⟩
        | file b =>
          refine ⟨?_, setFile_sound content hi ok.sound, rfl⟩
          apply setFile_done content hi
          rcases ok.files j i flags hop with x | ⟨cs, hn, _, _, haw⟩
          · exact .inr ⟨flags, x, hk⟩
          · exact .inl ⟨cs, hn, haw hk⟩
    refine ok.next ?_ hstep.1 hstep.2.1 ?_
    · intro k before after hc
      rcases hc with ⟨a, ex, hc⟩ | hc
      · cases hc
      · cases hc; exact ⟨rfl, rfl, rfl⟩
    · intro i' fl hm
      rw [hstep.2.2] at hm
      exact .inl hm

/-- The files that go with a reply, besides the one opened, are stray. -/
theorem manyFiles_extra {stray : List (Nat × BitVec 32)} {own : Nat → List (Nat × BitVec 32)} {fs : FileTree}
    {es : List FilesEvent} {st : ManyFiles} (hr : ManyFilesRun stray fs own es st) {j : Nat} {a : Action}
    {extra : List (Nat × BitVec 32)} {before after : FileTree} (hm : .did j a extra before after ∈ es) :
    (∀ f ∈ extra, f ∈ stray) ∧ (extra = [] ∨ ∃ resp files, a = .sent resp files ∧ extra.length ≤ files.length - 1) := by
  induction hr with
  | start => cases hm
  | notifies es st k n _ ih =>
    rcases List.mem_append.1 hm with hm | hm
    · exact ih hm
    · cases List.mem_singleton.1 hm; exact ⟨(by simp), .inl rfl⟩
  | sends es st k resp files extra _ hlen hstray ih =>
    rcases List.mem_append.1 hm with hm | hm
    · exact ih hm
    · cases List.mem_singleton.1 hm; exact ⟨hstray, .inr ⟨_, _, rfl, hlen⟩⟩
  | opens es st k path flags mode refuse _ ih =>
    rcases List.mem_append.1 hm with hm | hm
    · exact ih hm
    · cases List.mem_singleton.1 hm; exact ⟨(by simp), .inl rfl⟩
  | writes es st k i flags content _ hop hp hw ih =>
    rcases List.mem_append.1 hm with hm | hm
    · exact ih hm
    · cases List.mem_singleton.1 hm

/-- One event after the other, from what there was at first to what there is at last. -/
theorem manyFiles_chain {stray : List (Nat × BitVec 32)} {own : Nat → List (Nat × BitVec 32)} {fs : FileTree}
    {es : List FilesEvent} {st : ManyFiles} (hr : ManyFilesRun stray fs own es st) {h : List Call} {given : List (Nat × BitVec 32)}
    (he : ∀ e ∈ es, ∀ j before after, ChangeBy j e before after → MayHaveDone h given before after) :
    MayHaveDone h given fs st.tree := by
  induction hr with
  | start => exact .refl
  | notifies es st j n _ ih => exact ih fun e hm => he e (List.mem_append_left _ hm)
  | sends es st j resp files extra _ hlen hstray ih => exact ih fun e hm => he e (List.mem_append_left _ hm)
  | opens es st j path flags mode refuse _ ih =>
    exact (ih fun e hm => he e (List.mem_append_left _ hm)).trans
      (he _ (List.mem_append_right _ (List.mem_singleton.2 rfl)) j _ _ (.inl ⟨_, _, rfl⟩))
  | writes es st j i flags content _ hop hp hw ih =>
    exact (ih fun e hm => he e (List.mem_append_left _ hm)).trans
      (he _ (List.mem_append_right _ (List.mem_singleton.2 rfl)) j _ _ (.inr rfl))

end Iris
