import Verif.Spec.WinFiles
import Verif.Lemmas.Str
/-!
# Windows paths without reparse points, and how files change
-/
namespace Iris
open Spec

/-! ### Paths -/

theorem joinSep_nil_cons (l : List Str) : joinSep '\\' ([] :: l) = l.flatMap (fun c => '\\' :: c) := by
  induction l with
  | nil => rfl
  | cons a t ih =>
    cases t with
    | nil => simp [joinSep]
    | cons b r =>
      simp only [joinSep, List.nil_append, List.flatMap_cons] at ih ⊢
      rw [← ih]
      simp

theorem ntNames_pathOf {path : Str} {cs : List Str} {slash : Bool} (h : ntNames path = some (cs, slash)) (hne : ∀ c ∈ cs, c ≠ []) :
    PathOf path cs := by
  simp only [ntNames] at h
  have hj := joinSep_split '\\' path
  have hn : ∀ p ∈ split '\\' path, '\\' ∉ p := fun p hp => not_mem_of_mem_split hp
  split at h
  · rename_i c rest hs
    rw [hs, joinSep_nil_cons] at hj
    rw [hs] at hn
    split at h
    · rename_i hl
      simp only [Option.some.injEq, Prod.mk.injEq] at h
      obtain ⟨rfl, _⟩ := h
      refine ⟨fun x hx => ⟨hne x hx, hn x (List.mem_cons_of_mem _ (List.dropLast_subset _ hx))⟩, .inr ?_⟩
      have e : (c :: rest).dropLast ++ [[]] = c :: rest := by
        have hx : (c :: rest).getLast (by simp) = [] := by
          rw [List.getLast?_eq_some_getLast (by simp)] at hl
          exact Option.some.inj hl
        conv => rhs; rw [← List.dropLast_concat_getLast (l := c :: rest) (by simp), hx]
      rw [← hj]
      conv => lhs; rw [← e]
      simp
    · simp only [Option.some.injEq, Prod.mk.injEq] at h
      obtain ⟨rfl, _⟩ := h
      exact ⟨fun x hx => ⟨hne x hx, hn x (List.mem_cons_of_mem _ hx)⟩, .inl hj.symm⟩
  · cases h

/-- And the other way. -/
theorem Spec.PathOf.names {path : Str} {cs : List Str} (h : PathOf path cs) (hcs : cs ≠ []) :
    ∃ slash, ntNames path = some (cs, slash) ∧ (slash = true ↔ path.getLast? = some '\\') := by
  obtain ⟨hg, hp⟩ := h
  have hlast : ∀ y t, cs.getLast? = some y → y.getLast? = some t → t ≠ '\\' := by
    intro y t hy ht e
    subst e
    exact (hg y (List.mem_of_getLast? hy)).2 (List.mem_of_getLast? ht)
  rcases List.eq_nil_or_concat cs with rfl | ⟨l, y, rfl⟩
  · exact absurd rfl hcs
  simp only [List.concat_eq_append] at *
  obtain ⟨x, r, hxr⟩ : ∃ x r, l ++ [y] = x :: r := by cases l <;> simp
  rcases hp with hp | hp
  · refine ⟨false, ?_, ?_⟩
    · have hs : split '\\' path = [] :: (l ++ [y]) := by
        rw [hp, ← joinSep_nil_cons, split_joinSep (by simp)]
        intro p hp'
        rcases List.mem_cons.1 hp' with rfl | hp'
        · simp
        · exact (hg p hp').2
      have hy : y ≠ [] := (hg y (by simp)).1
      simp only [ntNames, hs, hxr]
      rw [if_neg (by rw [← hxr]; simpa using hy)]
    · simp only [Bool.false_eq_true, false_iff]
      rw [hp]
      cases hy : y.getLast? with
      | none => exact absurd (List.getLast?_eq_none_iff.1 hy) (hg y (by simp)).1
      | some t =>
        have := hlast y t (by simp) hy
        simp [List.flatMap_append, List.getLast?_append, List.getLast?_cons, hy]
        exact this
  · refine ⟨true, ?_, by rw [hp, List.getLast?_append]; simp⟩
    have hs : split '\\' path = [] :: (l ++ [y] ++ [[]]) := by
      have e : path = joinSep '\\' ([] :: (l ++ [y] ++ [[]])) := by
        rw [joinSep_nil_cons, hp]; simp
      rw [e, split_joinSep (by simp)]
      intro p hp'
      rcases List.mem_cons.1 hp' with rfl | hp'
      · simp
      · rcases List.mem_append.1 hp' with hp' | hp'
        · exact (hg p hp').2
        · simp at hp'; simp [hp']
    simp only [ntNames, hs, hxr, List.cons_append]
    rw [if_pos (by simp [List.getLast?_cons])]
    simp [← List.cons_append, ← hxr]

theorem NtKernel.lookup_mem {k : NtKernel} {e : List (Str × Nat)} {c : Str} {i : Nat} (h : k.lookup e c = some i) :
    ∃ n, (n, i) ∈ e ∧ k.upcase n = k.upcase c := by
  simp only [NtKernel.lookup, Option.map_eq_some_iff] at h
  obtain ⟨⟨n, j⟩, h1, rfl⟩ := h
  exact ⟨n, List.mem_of_find?_eq_some h1, by simpa using List.find?_some h1⟩

/-! ### Files that only change as they may -/

section
variable {up full : Str → Str} {h : List WinCall} {fs fs' : NtTree}

theorem Spec.NtMayHaveDone.refl : NtMayHaveDone up full h fs fs :=
  ⟨fun i n hn => ⟨n, hn, .same n⟩, fun i n hi hn => by
    have := (List.getElem?_eq_some_iff.1 hn).1
    omega⟩

theorem Spec.NtMayHaveDone.length (hd : NtMayHaveDone up full h fs fs') : List.length fs ≤ List.length fs' := by
  cases hl : List.length fs with
  | zero => omega
  | succ n =>
    have hn : n < List.length fs := by omega
    obtain ⟨n', hn', _⟩ := hd.1 n fs[n] (List.getElem?_eq_getElem hn)
    have := (List.getElem?_eq_some_iff.1 hn').1
    omega

/-- What a path leads to now is new, or it led there before. -/
theorem Spec.NtMayHaveDone.named (hd : NtMayHaveDone up full h fs fs') {cs : List Str} {i : Nat} (hn : NtNamed up fs' cs i) :
    List.length fs ≤ i ∨ NtNamed up fs cs i := by
  induction hn with
  | root => exact .inr .root
  | entry cs d e n c i hcs hdir hm hc ih =>
    by_cases hl : List.length fs ≤ d
    · rcases hd.2 d _ hl hdir with ⟨b, hb⟩ | ⟨e', he, hj⟩
      · cases hb
      · cases he; exact .inl (hj n i hm)
    · have ih := ih.resolve_left hl
      have hlt : d < List.length fs := by omega
      obtain ⟨n', h1, h2⟩ := hd.1 d fs[d] (List.getElem?_eq_getElem hlt)
      rw [hdir] at h1
      cases h1
      have hg := List.getElem?_eq_getElem hlt
      generalize fs[d] = n0 at h2 hg
      cases h2 with
      | same => exact .inr (.entry cs d e n c i ih hg hm hc)
      | entries old new hnew hold =>
        rcases hnew n i hm with hx | hx
        · exact .inr (.entry cs d old n c i ih hg hx hc)
        · exact .inl hx.1

/-- No reparse points are made. -/
theorem Spec.NtMayHaveDone.link (hd : NtMayHaveDone up full h fs fs') {i : Nat} {t : List Str} (hn : fs'[i]? = some (.link t)) :
    fs[i]? = some (.link t) := by
  by_cases hl : i < List.length fs
  · obtain ⟨n', h1, h2⟩ := hd.1 i fs[i] (List.getElem?_eq_getElem hl)
    rw [hn] at h1
    cases h1
    have hg := List.getElem?_eq_getElem hl
    generalize fs[i] = n0 at h2 hg
    cases h2
    exact hg
  · rcases hd.2 i _ (by omega) hn with ⟨_, hb⟩ | ⟨_, hb, _⟩ <;> cases hb

theorem Spec.NtMayHaveDone.noReparsePoints (hd : NtMayHaveDone up full h fs fs') (hl : NoReparsePoints up full h fs) :
    NoReparsePoints up full h fs' := by
  intro right path cs ds i t hg hp hpre hne hn hi
  have h1 := hd.link hi
  have hlt := (List.getElem?_eq_some_iff.1 h1).1
  exact hl right path cs ds i t hg hp hpre hne ((hd.named hn).resolve_left (by omega)) h1

/-! ### Single changes -/

theorem Spec.NtMayHaveDone.setFile (hd : NtMayHaveDone up full h fs fs') {i : Nat} {n : NtNode} (b : Bytes)
    (hi : fs'[i]? = some n) (hn : ∀ e, n ≠ .dir e) (hw : List.length fs ≤ i ∨ NtMayWrite up full h fs i) :
    NtMayHaveDone up full h fs (fs'.set i (.file b)) := by
  have hlt := (List.getElem?_eq_some_iff.1 hi).1
  refine ⟨fun j m hj => ?_, fun j m hl hj => ?_⟩
  · obtain ⟨m', h1, h2⟩ := hd.1 j m hj
    by_cases e : j = i
    · subst e
      have hjl := (List.getElem?_eq_some_iff.1 hj).1
      have hw := hw.resolve_left (by omega)
      rw [hi] at h1; cases h1
      refine ⟨.file b, by simp [List.getElem?_set, hlt], .content m b ?_ hw⟩
      cases h2 with
      | same => exact hn
      | content _ _ hx _ => exact hx
      | entries _ new => exact absurd rfl (hn new)
    · exact ⟨m', by rw [List.getElem?_set_ne (by omega)]; exact h1, h2⟩
  · by_cases e : j = i
    · subst e
      simp [List.getElem?_set, hlt] at hj
      exact .inl ⟨b, hj.symm⟩
    · rw [List.getElem?_set_ne (by omega)] at hj
      exact hd.2 j m hl hj

theorem Spec.NtMayHaveDone.setDir (hd : NtMayHaveDone up full h fs fs') {d : Nat} {e e' : List (Str × Nat)}
    (hi : fs'[d]? = some (.dir e))
    (hnew : ∀ c j, (c, j) ∈ e' → (c, j) ∈ e ∨ List.length fs ≤ j ∧ (List.length fs ≤ d ∨ NtMayEnter up full h fs d c))
    (hold : ∀ c j, (c, j) ∈ e → (c, j) ∈ e' ∨ List.length fs ≤ d ∨ NtMayEnter up full h fs d c) :
    NtMayHaveDone up full h fs (fs'.set d (.dir e')) := by
  have hlt := (List.getElem?_eq_some_iff.1 hi).1
  refine ⟨fun j m hj => ?_, fun j m hl hj => ?_⟩
  · obtain ⟨m', h1, h2⟩ := hd.1 j m hj
    by_cases ej : j = d
    · subst ej
      have hjl := (List.getElem?_eq_some_iff.1 hj).1
      have hn : ¬ List.length fs ≤ j := by omega
      rw [hi] at h1; cases h1
      refine ⟨.dir e', by simp [List.getElem?_set, hlt], ?_⟩
      have hnew' : ∀ c i, (c, i) ∈ e' → (c, i) ∈ e ∨ List.length fs ≤ i ∧ NtMayEnter up full h fs j c := by
        intro c i hm
        rcases hnew c i hm with x | ⟨x, y⟩
        · exact .inl x
        · exact .inr ⟨x, y.resolve_left hn⟩
      have hold' : ∀ c i, (c, i) ∈ e → (c, i) ∈ e' ∨ NtMayEnter up full h fs j c := by
        intro c i hm
        rcases hold c i hm with x | x
        · exact .inl x
        · exact .inr (x.resolve_left hn)
      cases h2 with
      | same => exact .entries _ _ hnew' hold'
      | entries old _ a b =>
        refine .entries _ _ (fun c i hm => ?_) (fun c i hm => ?_)
        · rcases hnew' c i hm with x | x
          · exact a c i x
          · exact .inr x
        · rcases b c i hm with x | x
          · exact hold' c i x
          · exact .inr x
    · exact ⟨m', by rw [List.getElem?_set_ne (by omega)]; exact h1, h2⟩
  · by_cases ej : j = d
    · subst ej
      simp [List.getElem?_set, hlt] at hj
      refine .inr ⟨e', hj.symm, fun c i hm => ?_⟩
      rcases hnew c i hm with x | x
      · rcases hd.2 j _ hl hi with ⟨_, hb⟩ | ⟨e0, he, hall⟩
        · cases hb
        · cases he; exact hall c i x
      · exact x.1
    · rw [List.getElem?_set_ne (by omega)] at hj
      exact hd.2 j m hl hj

theorem Spec.NtMayHaveDone.append (hd : NtMayHaveDone up full h fs fs') {n : NtNode} (hn : n = .file [] ∨ n = .dir []) :
    NtMayHaveDone up full h fs (fs' ++ [n]) := by
  refine ⟨fun j m hj => ?_, fun j m hl hj => ?_⟩
  · obtain ⟨m', h1, h2⟩ := hd.1 j m hj
    exact ⟨m', by rw [List.getElem?_append_left (List.getElem?_eq_some_iff.1 h1).1]; exact h1, h2⟩
  · by_cases hlt : j < List.length fs'
    · rw [List.getElem?_append_left hlt] at hj
      exact hd.2 j m hl hj
    · rw [List.getElem?_append_right (by omega)] at hj
      have : m = n := by
        cases hk : j - List.length fs' with
        | zero => rw [hk] at hj; simpa using hj.symm
        | succ x => rw [hk] at hj; simp at hj
      subst this
      rcases hn with rfl | rfl
      · exact .inl ⟨[], rfl⟩
      · exact .inr ⟨[], rfl, by simp⟩

theorem Spec.NtMayHaveDone.add (hd : NtMayHaveDone up full h fs fs') {d : Nat} {c : Str} {n : NtNode}
    (hn : n = .file [] ∨ n = .dir []) (hw : List.length fs ≤ d ∨ NtMayEnter up full h fs d c) :
    NtMayHaveDone up full h fs (fs'.add d c n) := by
  have hlen := hd.length
  unfold NtTree.add
  split
  · rename_i e he
    refine Spec.NtMayHaveDone.append (hd.setDir he (fun c' j hm => ?_) (fun c' j hm => ?_)) hn
    · rcases List.mem_append.1 hm with x | x
      · exact .inl x
      · simp only [List.mem_singleton, Prod.mk.injEq] at x
        obtain ⟨rfl, rfl⟩ := x
        exact .inr ⟨hlen, hw⟩
    · exact .inl (List.mem_append_left _ hm)
  · exact hd
end

/-! ### The kernel's walk where there is no reparse point on the way -/

theorem ntWalkWith_named {k : NtKernel} {fs : NtTree} (again : List Str → NtWalk) :
    ∀ (rest pre : List Str) (cur : Nat) (place : Option (Nat × Str)), NtNamed k.upcase fs pre cur →
      (∀ d c, place = some (d, c) → ∃ cs, pre = cs ++ [c] ∧ NtNamed k.upcase fs cs d) →
      (∀ ds i t, ds <+: pre ++ rest → ds ≠ pre ++ rest → NtNamed k.upcase fs ds i → fs[i]? ≠ some (.link t)) →
      (∀ i place', ntWalkWith k fs false again cur place rest = .found i place' → (∀ c ∈ rest, c ≠ []) ∧
        NtNamed k.upcase fs (pre ++ rest) i ∧
        ∀ d c, place' = some (d, c) → ∃ cs, pre ++ rest = cs ++ [c] ∧ NtNamed k.upcase fs cs d) ∧
      (∀ d c, ntWalkWith k fs false again cur place rest = .missing d c → (∀ c ∈ rest, c ≠ []) ∧
        ∃ init, pre ++ rest = init ++ [c] ∧ NtNamed k.upcase fs init d) := by
  intro rest
  induction rest with
  | nil =>
    intro pre cur place hn hp _
    refine ⟨fun i place' h => ?_, fun d c h => ?_⟩
    · simp only [ntWalkWith, NtWalk.found.injEq] at h
      obtain ⟨rfl, rfl⟩ := h
      exact ⟨by simp, by simpa using hn, by simpa using hp⟩
    · simp [ntWalkWith] at h
  | cons c rest ih =>
    intro pre cur place hn hp hl
    simp only [ntWalkWith]
    cases hcur : fs[cur]? with
    | none => simp
    | some n =>
      cases n with
      | link t => simp
      | file b => simp
      | dir e =>
        simp only []
        split
        · simp
        · rename_i hc
          simp only [not_or] at hc
          cases hlk : k.lookup e c with
          | none =>
            simp only []
            split
            · rename_i hr
              subst hr
              refine ⟨by simp, fun d c' h => ?_⟩
              simp only [NtWalk.missing.injEq] at h
              obtain ⟨rfl, rfl⟩ := h
              exact ⟨by simpa using hc.1, pre, rfl, hn⟩
            · simp
          | some i =>
            obtain ⟨m, hm, hmc⟩ := NtKernel.lookup_mem hlk
            have hn' : NtNamed k.upcase fs (pre ++ [c]) i := .entry pre cur e m c i hn hcur hm hmc
            have key := ih (pre ++ [c]) i (some (cur, c)) hn'
              (fun d c' he => by cases he; exact ⟨pre, rfl, hn⟩)
              (fun ds j t hp' hne => hl ds j t (by simpa using hp') (by simpa using hne))
            have done : ∀ w, ntWalkWith k fs false again i (some (cur, c)) rest = w →
                (∀ i place', w = .found i place' → (∀ c' ∈ c :: rest, c' ≠ []) ∧ NtNamed k.upcase fs (pre ++ c :: rest) i ∧
                  ∀ d c', place' = some (d, c') → ∃ cs, pre ++ c :: rest = cs ++ [c'] ∧ NtNamed k.upcase fs cs d) ∧
                (∀ d c', w = .missing d c' → (∀ c' ∈ c :: rest, c' ≠ []) ∧
                  ∃ init, pre ++ c :: rest = init ++ [c'] ∧ NtNamed k.upcase fs init d) := by
              rintro w rfl
              refine ⟨fun j p' h => ?_, fun d c' h => ?_⟩
              · obtain ⟨a, b, x⟩ := key.1 j p' h
                refine ⟨?_, by simpa using b, by simpa using x⟩
                intro c' hc'
                rcases List.mem_cons.1 hc' with rfl | hc'
                · exact hc.1
                · exact a c' hc'
              · obtain ⟨a, b⟩ := key.2 d c' h
                refine ⟨?_, by simpa using b⟩
                intro c'' hc'
                rcases List.mem_cons.1 hc' with rfl | hc'
                · exact hc.1
                · exact a c'' hc'
            simp only []
            cases hi : fs[i]? with
            | none => simp
            | some n =>
              cases n with
              | dir e' => exact done _ rfl
              | file b => exact done _ rfl
              | link t =>
                simp only []
                split
                · rename_i hr
                  have hr := hr.1
                  subst hr
                  refine ⟨fun j p' h => ?_, by simp⟩
                  simp only [NtWalk.found.injEq] at h
                  obtain ⟨rfl, rfl⟩ := h
                  exact ⟨by simpa using hc.1, hn', fun d c' he => by cases he; exact ⟨pre, rfl, hn⟩⟩
                · rename_i hr
                  simp only [and_true] at hr
                  refine absurd hi (hl (pre ++ [c]) i t ⟨rest, by simp⟩ ?_ hn')
                  intro he
                  exact hr (by simpa using he)

theorem ntWalkLinks_named {k : NtKernel} {fs : NtTree} (n : Nat) {cs : List Str}
    (hl : ∀ ds i t, ds <+: cs → ds ≠ cs → NtNamed k.upcase fs ds i → fs[i]? ≠ some (.link t)) :
    (∀ i place, ntWalkLinks k fs false n cs = .found i place → (∀ c ∈ cs, c ≠ []) ∧ NtNamed k.upcase fs cs i ∧
      ∀ d c, place = some (d, c) → ∃ init, cs = init ++ [c] ∧ NtNamed k.upcase fs init d) ∧
    (∀ d c, ntWalkLinks k fs false n cs = .missing d c → (∀ c ∈ cs, c ≠ []) ∧
      ∃ init, cs = init ++ [c] ∧ NtNamed k.upcase fs init d) := by
  cases n with
  | zero => simpa [ntWalkLinks] using ntWalkWith_named _ cs [] 0 none .root (by simp) (by simpa using hl)
  | succ n => simpa [ntWalkLinks] using ntWalkWith_named _ cs [] 0 none .root (by simp) (by simpa using hl)

/-- A path with an empty name leads nowhere. -/
theorem ntWalkWith_empty {k : NtKernel} {fs : NtTree} (follow : Bool) {again : List Str → NtWalk}
    (ha : ∀ l, [] ∈ l → ∃ e, again l = .failed e) : ∀ (cs : List Str) (cur : Nat) (place : Option (Nat × Str)), [] ∈ cs →
      ∃ e, ntWalkWith k fs follow again cur place cs = .failed e := by
  intro cs
  induction cs with
  | nil => intro _ _ h; simp at h
  | cons c rest ih =>
    intro cur place hm
    simp only [ntWalkWith]
    cases hcur : fs[cur]? with
    | none => exact ⟨_, rfl⟩
    | some n =>
      cases n with
      | link t => exact ⟨_, rfl⟩
      | file b => exact ⟨_, rfl⟩
      | dir e =>
        simp only []
        split
        · exact ⟨_, rfl⟩
        · rename_i hc
          simp only [not_or] at hc
          have hr : [] ∈ rest := by
            rcases List.mem_cons.1 hm with x | x
            · exact absurd x.symm hc.1
            · exact x
          have hne : rest ≠ [] := by rintro rfl; simp at hr
          cases k.lookup e c with
          | none => simp only [if_neg hne]; exact ⟨_, rfl⟩
          | some i =>
            simp only []
            cases fs[i]? with
            | none => exact ⟨_, rfl⟩
            | some n =>
              cases n with
              | dir e' => exact ih _ _ hr
              | file b => exact ih _ _ hr
              | link t =>
                simp only [if_neg (show ¬ (rest = [] ∧ follow = false) from fun x => hne x.1)]
                exact ha _ (List.mem_append_right _ hr)

theorem ntWalkLinks_empty {k : NtKernel} {fs : NtTree} (follow : Bool) (n : Nat) : ∀ cs, [] ∈ cs →
    ∃ e, ntWalkLinks k fs follow n cs = .failed e := by
  induction n with
  | zero => exact fun cs h => ntWalkWith_empty follow (fun _ _ => ⟨_, rfl⟩) cs 0 none h
  | succ n ih => exact fun cs h => ntWalkWith_empty follow ih cs 0 none h

theorem Spec.NtNamed.unique {up : Str → Str} {fs : NtTree}
    (huniq : ∀ (d : Nat) entries a b x y, fs[d]? = some (.dir entries) → (a, x) ∈ entries → (b, y) ∈ entries → up a = up b → x = y)
    {ds : List Str} {a : Nat} (ha : NtNamed up fs ds a) : ∀ b, NtNamed up fs ds b → a = b := by
  induction ha with
  | root =>
    intro b hb
    generalize hx : ([] : List Str) = x at hb
    cases hb with
    | root => rfl
    | entry => simp at hx
  | entry cs d e n c i _ hd hm hc ih =>
    intro b hb
    generalize hx : cs ++ [c] = x at hb
    cases hb with
    | root => simp at hx
    | entry cs' d' e' n' c' i' h' hd' hm' hc' =>
      obtain ⟨rfl, h2⟩ := List.append_inj' hx rfl
      cases h2
      have := ih _ h'
      subst this
      rw [hd] at hd'
      cases hd'
      exact huniq d e n n' i b hd hm hm' (hc.trans hc'.symm)

theorem Spec.NtNamed.next {up : Str → Str} {fs : NtTree} {x : List Str} {j : Nat} (h : NtNamed up fs x j) :
    ∀ (pre : List Str) (c : Str) (r : List Str), x = pre ++ c :: r →
      ∃ d e n k, NtNamed up fs pre d ∧ fs[d]? = some (.dir e) ∧ (n, k) ∈ e ∧ up n = up c := by
  induction h with
  | root => intro pre c r hx; simp at hx
  | entry cs d e n c' i h hd hm hc ih =>
    intro pre c r hx
    rcases List.eq_nil_or_concat r with rfl | ⟨r', y, rfl⟩
    · obtain ⟨rfl, h2⟩ := List.append_inj' hx rfl
      cases h2
      exact ⟨d, e, n, i, h, hd, hm, hc⟩
    · have hx' : cs ++ [c'] = (pre ++ c :: r') ++ [y] := by rw [hx]; simp
      obtain ⟨h1, _⟩ := List.append_inj' hx' rfl
      exact ih pre c r' h1

theorem ntWalkWith_finds {k : NtKernel} {fs : NtTree} (again : List Str → NtWalk)
    (hsound : ∀ (d : Nat) entries c j, fs[d]? = some (.dir entries) → (c, j) ∈ entries → j < List.length fs)
    (huniq : ∀ (d : Nat) entries a b x y, fs[d]? = some (.dir entries) → (a, x) ∈ entries → (b, y) ∈ entries →
      k.upcase a = k.upcase b → x = y) {i : Nat} :
    ∀ (rest pre : List Str) (cur : Nat) (place : Option (Nat × Str)), NtNamed k.upcase fs pre cur →
      (∀ c ∈ rest, c ≠ [] ∧ c ≠ c!"." ∧ c ≠ c!"..") →
      (∀ ds i t, ds <+: pre ++ rest → ds ≠ pre ++ rest → NtNamed k.upcase fs ds i → fs[i]? ≠ some (.link t)) →
      NtNamed k.upcase fs (pre ++ rest) i →
      ∃ place', ntWalkWith k fs false again cur place rest = .found i place' := by
  intro rest
  induction rest with
  | nil =>
    intro pre cur place hn _ _ hi
    rw [List.append_nil] at hi
    simp only [ntWalkWith]
    rw [hn.unique huniq _ hi]
    exact ⟨_, rfl⟩
  | cons c rest ih =>
    intro pre cur place hn hg hl hi
    have hgc := hg c (by simp)
    obtain ⟨d, e, n, j, hd, hcur, hm, hc⟩ := hi.next pre c rest rfl
    have := hn.unique huniq _ hd
    subst this
    have hn' : NtNamed k.upcase fs (pre ++ [c]) j := .entry pre cur e n c j hn hcur hm hc
    have hlk : k.lookup e c = some j := by
      cases hf : k.lookup e c with
      | none =>
        simp only [NtKernel.lookup, Option.map_eq_none_iff, List.find?_eq_none] at hf
        exact absurd (by simpa using hc) (hf _ hm)
      | some x =>
        obtain ⟨n', hm', hc'⟩ := NtKernel.lookup_mem hf
        rw [huniq cur e n' n x j hcur hm' hm (hc'.trans hc.symm)]
    have hjl := hsound cur e n j hcur hm
    have key := ih (pre ++ [c]) j (some (cur, c)) hn' (fun c' hc' => hg c' (List.mem_cons_of_mem _ hc'))
      (fun ds j t hp hne => hl ds j t (by simpa using hp) (by simpa using hne)) (by simpa using hi)
    have hnot : ¬ (c = [] ∨ c = c!"." ∨ c = c!"..") := by
      rintro (x | x | x)
      · exact hgc.1 x
      · exact hgc.2.1 x
      · exact hgc.2.2 x
    simp only [ntWalkWith, hcur, if_neg hnot, hlk]
    rw [List.getElem?_eq_getElem hjl]
    cases hj : fs[j] with
    | dir e' => exact key
    | file b => exact key
    | link t =>
      simp only []
      split
      · rename_i hr
        have hr := hr.1
        subst hr
        rw [hn'.unique huniq _ hi]
        exact ⟨_, rfl⟩
      · rename_i hr
        simp only [and_true] at hr
        refine absurd (by rw [List.getElem?_eq_getElem hjl, hj]) (hl (pre ++ [c]) j t ⟨rest, by simp⟩ ?_ hn')
        intro he
        exact hr (by simpa using he)

end Iris
