import Verif.Spec.Files
import Verif.Lemmas.LinuxPolicy
/-!
# Paths without links, and how files change
-/
namespace Iris
open Spec

theorem lookup_mem' {α : Type} {l : List (Str × α)} {c : Str} {v : α} (h : l.lookup c = some v) : (c, v) ∈ l := by
  induction l with
  | nil => cases h
  | cons x l ih =>
    obtain ⟨k, w⟩ := x
    rw [List.lookup_cons] at h
    by_cases e : c = k
    · subst e; simp at h; subst h; simp
    · have : (c == k) = false := by simpa using e
      rw [this] at h
      exact List.mem_cons_of_mem _ (ih h)

theorem lookup_append' {α : Type} (a b : List (Str × α)) (c : Str) : (a ++ b).lookup c = (a.lookup c).or (b.lookup c) := by
  induction a with
  | nil => rfl
  | cons x a ih =>
    obtain ⟨k, w⟩ := x
    simp only [List.cons_append, List.lookup_cons]
    cases c == k with
    | true => rfl
    | false => exact ih

/-! ### Files that only change as they may -/

section
variable {h : List Call} {own : List (Nat × BitVec 32)} {fs fs' fs'' : FileTree}

theorem Spec.MayHaveDone.refl : MayHaveDone h own fs fs :=
  ⟨fun i n hn => ⟨n, hn, MayBecome.same n⟩, fun i n hi hn => by
    have := (List.getElem?_eq_some_iff.1 hn).1
    omega⟩

theorem Spec.MayHaveDone.length (hd : MayHaveDone h own fs fs') : List.length fs ≤ List.length fs' := by
  cases hl : List.length fs with
  | zero => omega
  | succ n =>
    have hn : n < List.length fs := by omega
    obtain ⟨n', hn', _⟩ := hd.1 n fs[n] (List.getElem?_eq_getElem hn)
    have := (List.getElem?_eq_some_iff.1 hn').1
    omega

/-- Directories of the new tree are directories of the old one. -/
theorem Spec.MayHaveDone.dir (hd : MayHaveDone h own fs fs') {d : Nat} {e : List (Str × Nat)} {p : Nat}
    (hn : fs'[d]? = some (.dir e p)) : ∃ old new, e = old ++ new ∧ fs[d]? = some (.dir old p) ∧
      ∀ c j, (c, j) ∈ new → List.length fs ≤ j ∧ old.lookup c = none ∧ ∃ cs, Named fs cs d ∧ WriteAllowed h (cs ++ [c]) := by
  by_cases hl : d < List.length fs
  · obtain ⟨n', h1, h2⟩ := hd.1 d fs[d] (List.getElem?_eq_getElem hl)
    rw [hn] at h1
    cases h1
    have hg := List.getElem?_eq_getElem hl
    generalize fs[d] = n at h2 hg
    cases h2 with
    | same => exact ⟨e, [], by simp, hg, by simp⟩
    | entries old new _ hnew => exact ⟨old, new, rfl, hg, hnew⟩
  · obtain ⟨c, hc⟩ := hd.2 d _ (by omega) hn
    cases hc

theorem Spec.MayHaveDone.named_old (hd : MayHaveDone h own fs fs') {cs : List Str} {i : Nat} (hn : Named fs' cs i) :
    i < List.length fs ∨ cs = [] → Named fs cs i := by
  induction hn with
  | root => exact fun _ => .root
  | entry cs d e p c i hcs hdir hlk ih =>
    intro hi
    obtain hi | hi := hi
    · obtain ⟨old, new, rfl, h1, h2⟩ := hd.dir hdir
      have hdl : d < List.length fs := (List.getElem?_eq_some_iff.1 h1).1
      refine .entry cs d old p c i (ih (.inl hdl)) h1 ?_
      rw [lookup_append'] at hlk
      cases ho : old.lookup c with
      | some j => rw [ho] at hlk; exact hlk
      | none =>
        rw [ho] at hlk
        have := (h2 c i (lookup_mem' hlk)).1
        omega
    · simp at hi

theorem Spec.MayHaveDone.named_new (hd : MayHaveDone h own fs fs') {cs : List Str} {i : Nat} (hn : Named fs cs i) : Named fs' cs i := by
  induction hn with
  | root => exact .root
  | entry cs d e p c i hcs hdir hlk ih =>
    obtain ⟨n', h1, h2⟩ := hd.1 d _ hdir
    cases h2 with
    | same => exact .entry cs d e p c i ih h1 hlk
    | entries _ new _ _ => exact .entry cs d _ p c i ih h1 (by rw [lookup_append', hlk]; rfl)

theorem Spec.MayHaveDone.trans (h1 : MayHaveDone h own fs fs') (h2 : MayHaveDone h own fs' fs'') : MayHaveDone h own fs fs'' := by
  have hl := h1.length
  refine ⟨fun i n hn => ?_, fun i n hi hn => ?_⟩
  · have hi : i < List.length fs := (List.getElem?_eq_some_iff.1 hn).1
    obtain ⟨n', e1, m1⟩ := h1.1 i n hn
    obtain ⟨n'', e2, m2⟩ := h2.1 i n' e1
    refine ⟨n'', e2, ?_⟩
    cases m2 with
    | same => exact m1
    | content a b hw =>
      have hw : (∃ cs, Named fs cs i ∧ WriteAllowed h cs) ∨ GivenToWrite own i := by
        rcases hw with ⟨cs, hc, hw⟩ | hw
        · exact .inl ⟨cs, h1.named_old hc (.inl hi), hw⟩
        · exact .inr hw
      cases m1 with
      | same => exact .content a b hw
      | content a' _ _ => exact .content a' b hw
    | entries old new parent hnew =>
      have hnew' : ∀ c j, (c, j) ∈ new → List.length fs ≤ j ∧ old.lookup c = none ∧
          ∃ cs, Named fs cs i ∧ WriteAllowed h (cs ++ [c]) := by
        intro c j hm
        obtain ⟨a, b, cs, hc, hw⟩ := hnew c j hm
        exact ⟨by omega, b, cs, h1.named_old hc (.inl hi), hw⟩
      cases m1 with
      | same => exact .entries old new parent hnew'
      | entries old' new' _ hold =>
        rw [List.append_assoc]
        refine .entries old' (new' ++ new) parent fun c j hm => ?_
        obtain hm | hm := List.mem_append.1 hm
        · exact hold c j hm
        · obtain ⟨a, b, x⟩ := hnew' c j hm
          refine ⟨a, ?_, x⟩
          rw [lookup_append'] at b
          cases ho : old'.lookup c with
          | none => rfl
          | some v => rw [ho] at b; cases b
  · by_cases hi2 : i < List.length fs'
    · obtain ⟨n', e2, m2⟩ := h2.1 i fs'[i] (List.getElem?_eq_getElem hi2)
      rw [hn] at e2; cases e2
      obtain ⟨c, hc⟩ := h1.2 i fs'[i] hi (List.getElem?_eq_getElem hi2)
      rw [hc] at m2
      cases m2 with
      | same => exact ⟨c, rfl⟩
      | content _ b _ => exact ⟨b, rfl⟩
    · exact h2.2 i n (by omega) hn

theorem Spec.MayHaveDone.noLinks (hd : MayHaveDone h own fs fs') (hl : NoLinks h fs) : NoLinks h fs' := by
  intro cs ds i t ha hp hn hi
  by_cases hlt : i < List.length fs
  · obtain ⟨n', e1, m1⟩ := hd.1 i fs[i] (List.getElem?_eq_getElem hlt)
    rw [hi] at e1
    cases e1
    have hg := List.getElem?_eq_getElem hlt
    generalize fs[i] = n at m1 hg
    cases m1
    exact hl cs ds i t ha hp (hd.named_old hn (.inl hlt)) hg
  · obtain ⟨c, hc⟩ := hd.2 i _ (by omega) hi
    cases hc
end

/-! ### Single changes -/

theorem setFile_done {h : List Call} {own : List (Nat × BitVec 32)} {fs : FileTree} {i : Nat} {a : Bytes} (b : Bytes)
    (hi : fs[i]? = some (.file a)) (hw : (∃ cs, Named fs cs i ∧ WriteAllowed h cs) ∨ GivenToWrite own i) :
    MayHaveDone h own fs (fs.set i (.file b)) := by
  refine ⟨fun j n hj => ?_, fun j n hl hj => ?_⟩
  · by_cases e : j = i
    · subst e
      have hlt := (List.getElem?_eq_some_iff.1 hi).1
      rw [hi] at hj; cases hj
      exact ⟨.file b, by simp [List.getElem?_set, hlt], .content a b hw⟩
    · exact ⟨n, by rw [List.getElem?_set_ne (by omega)]; exact hj, .same n⟩
  · have := (List.getElem?_eq_some_iff.1 hj).1
    simp at this
    omega

theorem setFile_sound {fs : FileTree} {i : Nat} {a : Bytes} (b : Bytes) (hi : fs[i]? = some (.file a)) (hs : SoundTree fs) :
    SoundTree (fs.set i (.file b)) := by
  intro d e p c j hd hc
  simp only [List.length_set]
  by_cases hdi : d = i
  · subst hdi
    have hlt := (List.getElem?_eq_some_iff.1 hi).1
    simp [List.getElem?_set, hlt] at hd
  · rw [List.getElem?_set_ne (by omega)] at hd
    exact hs d e p c j hd hc

theorem create_done {h : List Call} {own : List (Nat × BitVec 32)} {fs : FileTree} {d : Nat} {c : Str} {e : List (Str × Nat)} {p : Nat} {cs : List Str}
    (hd : fs[d]? = some (.dir e p)) (hc : e.lookup c = none) (hn : Named fs cs d) (hw : WriteAllowed h (cs ++ [c])) :
    MayHaveDone h own fs (fs.create d c) := by
  have hlt := (List.getElem?_eq_some_iff.1 hd).1
  simp only [FileTree.create, hd]
  refine ⟨fun j n hj => ?_, fun j n hl hj => ?_⟩
  · have hjl := (List.getElem?_eq_some_iff.1 hj).1
    by_cases ej : j = d
    · subst ej
      rw [hd] at hj; cases hj
      refine ⟨.dir (e ++ [(c, List.length fs)]) p, ?_, .entries e _ p fun c' j' hm => ?_⟩
      · rw [List.getElem?_append_left (by simpa using hlt)]
        simp [List.getElem?_set, hlt]
      · simp only [List.mem_singleton, Prod.mk.injEq] at hm
        obtain ⟨rfl, rfl⟩ := hm
        exact ⟨Nat.le_refl _, hc, cs, hn, hw⟩
    · refine ⟨n, ?_, .same n⟩
      rw [List.getElem?_append_left (by simpa using hjl), List.getElem?_set_ne (by omega)]
      exact hj
  · rw [List.getElem?_append_right (by simpa using hl)] at hj
    simp only [List.length_set] at hj
    cases hk : j - List.length fs with
    | zero => rw [hk] at hj; simp at hj; exact ⟨[], hj.symm⟩
    | succ k => rw [hk] at hj; simp at hj

theorem create_sound {fs : FileTree} {d : Nat} {c : Str} {e : List (Str × Nat)} {p : Nat} (hd : fs[d]? = some (.dir e p))
    (hs : SoundTree fs) : SoundTree (fs.create d c) := by
  have hlt := (List.getElem?_eq_some_iff.1 hd).1
  intro d' e' p' c' j hd' hc'
  simp only [FileTree.create, hd] at hd' ⊢
  simp only [List.length_append, List.length_set, List.length_singleton]
  by_cases hl : d' < List.length fs
  · rw [List.getElem?_append_left (by simpa using hl)] at hd'
    by_cases ed : d' = d
    · subst ed
      simp [List.getElem?_set, hlt] at hd'
      obtain ⟨rfl, rfl⟩ := hd'
      rw [lookup_append'] at hc'
      cases ho : e.lookup c' with
      | some k => rw [ho] at hc'; cases hc'; have := hs d' e p c' j hd ho; omega
      | none =>
        rw [ho] at hc'
        have := lookup_mem' hc'
        simp at this
        omega
    · rw [List.getElem?_set_ne (by omega)] at hd'
      have := hs d' e' p' c' j hd' hc'
      omega
  · rw [List.getElem?_append_right (by simpa using hl)] at hd'
    simp only [List.length_set] at hd'
    cases hk : d' - List.length fs with
    | zero => rw [hk] at hd'; simp at hd'
    | succ k => rw [hk] at hd'; simp at hd'

theorem create_named {fs : FileTree} {d : Nat} {c : Str} {e : List (Str × Nat)} {p : Nat} {cs : List Str}
    (hm : MayHaveDone h own fs (fs.create d c)) (hd : fs[d]? = some (.dir e p)) (hc : e.lookup c = none) (hn : Named fs cs d) :
    Named (fs.create d c) (cs ++ [c]) (List.length fs) := by
  have hlt := (List.getElem?_eq_some_iff.1 hd).1
  refine .entry cs d (e ++ [(c, List.length fs)]) p c _ (hm.named_new hn) ?_ ?_
  · simp only [FileTree.create, hd]
    rw [List.getElem?_append_left (by simpa using hlt)]
    simp [List.getElem?_set, hlt]
  · rw [lookup_append', hc]; simp

/-! ### The kernel's walk where there is no link -/

theorem walkWith_named {fs : FileTree} (follow : Bool) (again : Nat → List Str → Walk) :
    ∀ (rest pre : List Str) (cur : Nat), Named fs pre cur → (∀ c ∈ rest, GoodComponent c) →
      (∀ ds i t, ds <+: pre ++ rest → Named fs ds i → fs[i]? ≠ some (.link t)) →
      (∀ i, walkWith fs follow again cur rest = .found i → Named fs (pre ++ rest) i) ∧
      (∀ d c, walkWith fs follow again cur rest = .missing d c → ∃ init e p, rest = init ++ [c] ∧ Named fs (pre ++ init) d ∧
        fs[d]? = some (.dir e p) ∧ e.lookup c = none) := by
  intro rest
  induction rest with
  | nil =>
    intro pre cur hn _ _
    refine ⟨fun i h => ?_, fun d c h => ?_⟩
    · simp only [walkWith, Walk.found.injEq] at h; subst h; simpa using hn
    · simp [walkWith] at h
  | cons c rest ih =>
    intro pre cur hn hg hl
    have hgc := hg c (by simp)
    simp only [walkWith]
    cases hcur : fs[cur]? with
    | none => simp
    | some n =>
      cases n with
      | link t => simp
      | file b => simp
      | dir e p =>
        simp only [if_neg (show ¬ c = ['.'] from hgc.2.2.1), if_neg (show ¬ c = ['.', '.'] from hgc.2.2.2)]
        cases hlk : e.lookup c with
        | none =>
          simp only []
          split
          · rename_i hr
            subst hr
            refine ⟨by simp, fun d c' h => ?_⟩
            simp only [Walk.missing.injEq] at h
            obtain ⟨rfl, rfl⟩ := h
            exact ⟨[], e, p, rfl, by simpa using hn, hcur, hlk⟩
          · simp
        | some i =>
          have hn' : Named fs (pre ++ [c]) i := .entry pre cur e p c i hn hcur hlk
          have hnl := hl (pre ++ [c]) i
          have key := ih (pre ++ [c]) i hn' (fun c' hc' => hg c' (List.mem_cons_of_mem _ hc'))
            (fun ds j t hp => hl ds j t (by simpa using hp))
          have done : ∀ w, walkWith fs follow again i rest = w →
              (∀ i, w = .found i → Named fs (pre ++ c :: rest) i) ∧
              (∀ d c', w = .missing d c' → ∃ init e p, c :: rest = init ++ [c'] ∧ Named fs (pre ++ init) d ∧
                fs[d]? = some (.dir e p) ∧ e.lookup c' = none) := by
            rintro w rfl
            refine ⟨fun j h => by simpa using key.1 j h, fun d c' h => ?_⟩
            obtain ⟨init, e, p, h1, h2, h3, h4⟩ := key.2 d c' h
            exact ⟨c :: init, e, p, by rw [h1]; rfl, by simpa using h2, h3, h4⟩
          simp only []
          cases hi : fs[i]? with
          | none => simp
          | some n =>
            cases n with
            | link t => exact absurd hi (hnl t ⟨rest, by simp⟩ hn')
            | dir e' p' => exact done _ rfl
            | file b => exact done _ rfl

theorem walkLinks_named {fs : FileTree} (follow : Bool) (n : Nat) {cs : List Str} (hg : ∀ c ∈ cs, GoodComponent c)
    (hl : ∀ ds i t, ds <+: cs → Named fs ds i → fs[i]? ≠ some (.link t)) :
    (∀ i, walkLinks fs follow n 0 cs = .found i → Named fs cs i) ∧
    (∀ d c, walkLinks fs follow n 0 cs = .missing d c → ∃ init e p, cs = init ++ [c] ∧ Named fs init d ∧
      fs[d]? = some (.dir e p) ∧ e.lookup c = none) := by
  cases n with
  | zero => simpa [walkLinks] using walkWith_named follow _ cs [] 0 .root hg (by simpa using hl)
  | succ n => simpa [walkLinks] using walkWith_named follow _ cs [] 0 .root hg (by simpa using hl)

/-- And the other way: what has a name is found. -/
theorem Spec.Named.unique {fs : FileTree} {ds : List Str} {a : Nat} (ha : Named fs ds a) : ∀ b, Named fs ds b → a = b := by
  induction ha with
  | root =>
    intro b hb
    generalize hx : ([] : List Str) = x at hb
    cases hb with
    | root => rfl
    | entry => simp at hx
  | entry cs d e p c i _ hd hc ih =>
    intro b hb
    generalize hx : cs ++ [c] = x at hb
    cases hb with
    | root => simp at hx
    | entry cs' d' e' p' c' i' h' hd' hc' =>
      obtain ⟨rfl, h2⟩ := List.append_inj' hx rfl
      cases h2
      have := ih _ h'
      subst this
      rw [hd] at hd'
      cases hd'
      rw [hc] at hc'
      exact Option.some.inj hc'

/-- The first step after a part of the way. -/
theorem Spec.Named.next {fs : FileTree} {x : List Str} {j : Nat} (h : Named fs x j) : ∀ (pre : List Str) (c : Str) (r : List Str),
    x = pre ++ c :: r → ∃ d e p k, Named fs pre d ∧ fs[d]? = some (.dir e p) ∧ e.lookup c = some k := by
  induction h with
  | root => intro pre c r hx; simp at hx
  | entry cs d e p c' i h hd hc ih =>
    intro pre c r hx
    rcases List.eq_nil_or_concat r with rfl | ⟨r', y, rfl⟩
    · obtain ⟨rfl, h2⟩ := List.append_inj' hx rfl
      cases h2
      exact ⟨d, e, p, i, h, hd, hc⟩
    · have hx' : cs ++ [c'] = (pre ++ c :: r') ++ [y] := by rw [hx]; simp
      obtain ⟨h1, _⟩ := List.append_inj' hx' rfl
      exact ih pre c r' h1

theorem walkWith_finds {fs : FileTree} (follow : Bool) (again : Nat → List Str → Walk) (hs : SoundTree fs) {i : Nat} :
    ∀ (rest pre : List Str) (cur : Nat), Named fs pre cur → (∀ c ∈ rest, GoodComponent c) →
      (∀ ds i t, ds <+: pre ++ rest → Named fs ds i → fs[i]? ≠ some (.link t)) →
      Named fs (pre ++ rest) i → walkWith fs follow again cur rest = .found i := by
  intro rest
  induction rest with
  | nil =>
    intro pre cur hn _ _ hi
    rw [List.append_nil] at hi
    simp only [walkWith]
    rw [hn.unique _ hi]
  | cons c rest ih =>
    intro pre cur hn hg hl hi
    have hgc := hg c (by simp)
    obtain ⟨d, e, p, k, hd, hcur, hlk⟩ := hi.next pre c rest rfl
    have := hn.unique _ hd
    subst this
    have hn' : Named fs (pre ++ [c]) k := .entry pre cur e p c k hn hcur hlk
    have hkl := hs cur e p c k hcur hlk
    have key := ih (pre ++ [c]) k hn' (fun c' hc' => hg c' (List.mem_cons_of_mem _ hc'))
      (fun ds j t hp => hl ds j t (by simpa using hp)) (by simpa using hi)
    simp only [walkWith, hcur, if_neg (show ¬ c = ['.'] from hgc.2.2.1), if_neg (show ¬ c = ['.', '.'] from hgc.2.2.2), hlk]
    have hnl := hl (pre ++ [c]) k
    cases hk : fs[k]? with
    | none => rw [List.getElem?_eq_getElem hkl] at hk; cases hk
    | some n =>
      cases n with
      | link t => exact absurd hk (hnl t ⟨rest, by simp⟩ hn')
      | dir e' p' => exact key
      | file b => exact key

end Iris
