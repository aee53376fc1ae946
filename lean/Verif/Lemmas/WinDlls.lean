import Verif.Spec.WinDlls
namespace Iris
open Spec

theorem loadDll_eq : LOAD_DLL = loadRights := by decide
theorem loadDll_rc : LOAD_DLL ||| 0x20000#32 = loadRights := by decide
theorem packages_eq : packages = [ALL_PACKAGES, ALL_RESTRICTED_PACKAGES] := rfl

/-! ## Access checks -/

theorem grants_zero (who : Bytes → Bool) (l : List Ace) : grants who 0 l = true := by
  cases l <;> simp [grants]

theorem grants_mono (who : Bytes → Bool) : ∀ (l : List Ace) (n m : BitVec 32), n &&& m = n →
    grants who m l = true → grants who n l = true
  | [], n, m, h, hg => by
    simp only [grants, beq_iff_eq] at *
    subst hg; simpa using h.symm
  | a :: l, n, m, h, hg => by
    rw [grants] at *
    by_cases hn : n = 0
    · simp [hn]
    · have hm : m ≠ 0 := by rintro rfl; simp at h; exact hn h.symm
      rw [if_neg hn]; rw [if_neg hm] at hg
      by_cases h1 : a.flags &&& 8 ≠ 0 ∨ who a.sid = false
      · rw [if_pos h1] at *; exact grants_mono who l n m h hg
      · rw [if_neg h1] at *
        by_cases h2 : a.kind = 0
        · rw [if_pos h2] at *
          refine grants_mono who l _ _ ?_ hg
          rw [← h]
          ext i; simp only [BitVec.getElem_and, BitVec.getElem_not]; 
          cases n[i] <;> cases m[i] <;> cases a.mask[i] <;> rfl
        · rw [if_neg h2] at *
          by_cases h3 : a.kind = 1 ∧ a.mask &&& m ≠ 0
          · rw [if_pos h3] at hg; simp at hg
          · rw [if_neg h3] at hg
            rw [if_neg]
            · exact grants_mono who l n m h hg
            · rintro ⟨h4, h5⟩
              apply h3
              refine ⟨h4, fun h6 => h5 ?_⟩
              rw [← h, BitVec.and_comm n m, ← BitVec.and_assoc, h6]
              simp

theorem grants_delegated (sid : Bytes) : ∀ (l : List Ace), Simple sid l →
    ∀ n : BitVec 32, (∃ a ∈ l, a.kind = 0 ∧ n &&& a.mask = n ∧ a.sid = sid) → grants (· == sid) n l = true
  | [], _, _, ⟨_, h, _⟩ => nomatch h
  | a :: l, hs, n, ⟨b, hb, hk, hm, hsid⟩ => by
    have hs' : Simple sid l := fun c hc => hs c (List.mem_cons_of_mem _ hc)
    rw [grants]
    by_cases hn : n = 0
    · simp [hn]
    rw [if_neg hn]
    by_cases ha : a.sid = sid
    · obtain ⟨h1, h2⟩ := hs a List.mem_cons_self ha
      rw [if_neg (fun h => h.elim (fun h => h h2) (fun h => by simp [ha] at h))]
      rcases List.mem_cons.1 hb with rfl | hb
      · rw [if_pos hk]
        have : n &&& ~~~b.mask = 0 := by
          rw [← hm, BitVec.and_assoc]; simp
        rw [this]; exact grants_zero _ _
      · have ih := grants_delegated sid l hs'
        by_cases h3 : a.kind = 0
        · rw [if_pos h3]
          refine ih _ ⟨b, hb, hk, ?_, hsid⟩
          conv => rhs; rw [← hm]
          ext i; simp only [BitVec.getElem_and, BitVec.getElem_not]
          cases n[i] <;> cases b.mask[i] <;> cases a.mask[i] <;> rfl
        · rw [if_neg h3, if_neg (fun h => h1 h.1)]
          exact ih _ ⟨b, hb, hk, hm, hsid⟩
    · rw [if_pos (by simp [ha])]
      rcases List.mem_cons.1 hb with rfl | hb
      · exact absurd hsid ha
      · exact grants_delegated sid l hs' n ⟨b, hb, hk, hm, hsid⟩

/-! ## One call -/

theorem delegated_ok (getAce : Nat → Except (BitVec 32) Unit) (hg : ∀ i, getAce i = .ok ()) (sid : Bytes) :
    ∀ (l : List Ace) (i : Nat), delegated getAce sid i l =
      .ok (l.any fun a => decide (a.kind = ACCESS_ALLOWED) && decide (a.mask &&& LOAD_DLL = LOAD_DLL) && decide (a.sid = sid))
  | [], _ => rfl
  | a :: l, i => by
    rw [delegated, hg]
    simp only []
    rw [delegated_ok getAce hg sid l (i + 1)]
    rfl

theorem ensureDll_calls (os : DllOs) (path sid : Bytes) (s : DllState) :
    (ensureDll os path sid s).2.calls = s.calls + 1 := by
  rw [ensureDll]
  repeat' split
  all_goals rfl

theorem ensureDll_dacls (os : DllOs) (path sid : Bytes) (s : DllState) :
    (ensureDll os path sid s).2.dacls = s.dacls ∨
    ∃ l, s.dacls path = some l ∧
      (ensureDll os path sid s).2.dacls = fun p => if p = path then some (os.grant l loadRights sid) else s.dacls p := by
  rw [ensureDll]
  simp only [loadDll_rc]
  repeat' split
  all_goals first | exact .inl rfl | exact .inr ⟨_, by assumption, rfl⟩

theorem ensureDll_success (os : DllOs) (hg : GrantsAccess os.grant) (path sid : Bytes) (s : DllState)
    (ho : Succeeds (os.call s.calls)) (l : List Ace) (hl : s.dacls path = some l) (hs : Simple sid l) :
    mayAccess (· == sid) loadRights ((ensureDll os path sid s).2.dacls path) = true := by
  obtain ⟨h1, h2, h3, h4, h5⟩ := ho
  rw [ensureDll]
  simp only [h1, h2, h4, h5, hl, delegated_ok _ h3]
  cases ha : l.any fun a =>
    decide (a.kind = ACCESS_ALLOWED) && decide (a.mask &&& LOAD_DLL = LOAD_DLL) && decide (a.sid = sid)
  · simp only [if_true, mayAccess, loadDll_rc]
    exact hg.given l loadRights sid hs
  · simp only [hl, mayAccess]
    obtain ⟨a, ha, hb⟩ := List.any_eq_true.1 ha
    simp only [Bool.and_eq_true, decide_eq_true_eq] at hb
    refine grants_delegated sid l hs _ ⟨a, ha, hb.1.1, ?_, hb.2⟩
    rw [BitVec.and_comm, ← loadDll_eq]; exact hb.1.2

/-! ## What happens to the list of one file -/

/-- The rights are granted to packages, any number of times. -/
inductive Evolves (grant : List Ace → BitVec 32 → Bytes → List Ace) : Option (List Ace) → Option (List Ace) → Prop
  | refl (d) : Evolves grant d d
  | step {d : Option (List Ace)} {l : List Ace} {sid : Bytes} (h : Evolves grant d (some l)) (hs : sid ∈ packages) :
    Evolves grant d (some (grant l loadRights sid))

theorem Evolves.trans {grant} {a b c : Option (List Ace)} (h : Evolves grant a b) (k : Evolves grant b c) :
    Evolves grant a c := by
  induction k with
  | refl => exact h
  | step _ hs ih => exact .step ih hs

theorem ensureDll_evolves (os : DllOs) (path sid : Bytes) (hs : sid ∈ packages) (s : DllState) (p : Bytes) :
    Evolves os.grant (s.dacls p) ((ensureDll os path sid s).2.dacls p) := by
  rcases ensureDll_dacls os path sid s with h | ⟨l, hl, h⟩
  · rw [h]; exact .refl _
  · rw [h]; dsimp only
    split
    · subst p; rw [hl]; exact .step (.refl _) hs
    · exact .refl _

theorem ensureDll_other (os : DllOs) (path sid : Bytes) (s : DllState) (p : Bytes) (hp : p ≠ path) :
    (ensureDll os path sid s).2.dacls p = s.dacls p := by
  rcases ensureDll_dacls os path sid s with h | ⟨l, hl, h⟩
  · rw [h]
  · rw [h]; simp [hp]

theorem ensureTrustees_evolves (os : DllOs) (path : Bytes) (s : DllState) (p : Bytes) :
    Evolves os.grant (s.dacls p) ((ensureTrustees os path s).dacls p) :=
  (ensureDll_evolves os path _ (by simp [packages_eq]) s p).trans
    (ensureDll_evolves os path _ (by simp [packages_eq]) _ p)

theorem ensureTrustees_other (os : DllOs) (path : Bytes) (s : DllState) (p : Bytes) (hp : p ≠ path) :
    (ensureTrustees os path s).dacls p = s.dacls p := by
  rw [ensureTrustees, ensureDll_other _ _ _ _ _ hp, ensureDll_other _ _ _ _ _ hp]

theorem ensureTrustees_calls (os : DllOs) (path : Bytes) (s : DllState) :
    (ensureTrustees os path s).calls = s.calls + 2 := by
  rw [ensureTrustees, ensureDll_calls, ensureDll_calls]

/-- All names of a directory. -/
def visit (os : DllOs) (dir : Bytes) (names : List Bytes) (s : DllState) : DllState :=
  names.foldl (fun s name => ensureTrustees os (dir ++ name) s) s

theorem visit_evolves (os : DllOs) (dir : Bytes) (p : Bytes) : ∀ (names : List Bytes) (s : DllState),
    Evolves os.grant (s.dacls p) ((visit os dir names s).dacls p)
  | [], _ => .refl _
  | n :: ns, s => (ensureTrustees_evolves os (dir ++ n) s p).trans (visit_evolves os dir p ns _)

theorem visit_other (os : DllOs) (dir : Bytes) (p : Bytes) : ∀ (names : List Bytes) (s : DllState),
    (∀ n ∈ names, p ≠ dir ++ n) → (visit os dir names s).dacls p = s.dacls p
  | [], _, _ => rfl
  | n :: ns, s, h => by
    rw [visit, List.foldl_cons]
    show (visit os dir ns _).dacls p = _
    rw [visit_other os dir p ns _ (fun m hm => h m (List.mem_cons_of_mem _ hm)),
      ensureTrustees_other _ _ _ _ (h n List.mem_cons_self)]

theorem visit_calls (os : DllOs) (dir : Bytes) : ∀ (names : List Bytes) (s : DllState),
    (visit os dir names s).calls = s.calls + 2 * names.length
  | [], s => by simp [visit]
  | n :: ns, s => by
    show (visit os dir ns _).calls = _
    rw [visit_calls os dir ns, ensureTrustees_calls]; simp; omega

theorem ensureDlls_visit (os : DllOs) (folder : Bytes) (s : DllState) :
    (ensureDlls os folder s).2 =
      visit os (withBackslash folder) (os.find (withBackslash folder ++ utf8 c!"*.dll")).1 s := by
  have e : utf8 c!"*.dll" = [42, 46, 100, 108, 108] := by decide +kernel
  rw [ensureDlls, e]
  split <;> rename_i h <;> simp [h, visit]

/-! ## Consequences for rights -/

theorem evolves_rights {grant} (hg : GrantsAccess grant) {d e : Option (List Ace)} (h : Evolves grant d e)
    (who : Bytes → Bool) (need : BitVec 32) :
    (mayAccess who need d = true → mayAccess who need e = true) ∧
    (mayAccess who need e = true → mayAccess who (need &&& ~~~loadRights) d = true) ∧
    ((∀ sid ∈ packages, who sid = false) → mayAccess who need e = mayAccess who need d) := by
  induction h generalizing need with
  | refl =>
    refine ⟨id, fun h => ?_, fun _ => rfl⟩
    cases d with
    | none => rfl
    | some l =>
      refine grants_mono who l _ need ?_ h
      ext i; simp only [BitVec.getElem_and, BitVec.getElem_not]
      cases need[i] <;> cases loadRights[i] <;> rfl
  | @step l sid h hs ih =>
    refine ⟨fun h => hg.more _ _ _ _ _ ((ih need).1 h), fun h => ?_, fun h => ?_⟩
    · have h1 := (ih (need &&& ~~~loadRights)).2.1 (hg.only _ _ _ _ _ h)
      rwa [BitVec.and_assoc, BitVec.and_self] at h1
    · rw [← (ih need).2.2 h]
      exact hg.others _ _ _ _ _ (h _ hs)

theorem evolves_simple {grant} (hg : GrantsAccess grant) {d e : Option (List Ace)} (h : Evolves grant d e) (sid : Bytes)
    (hd : ∃ l, d = some l ∧ Simple sid l) : ∃ l, e = some l ∧ Simple sid l := by
  induction h with
  | refl => exact hd
  | step h hs ih =>
    obtain ⟨l, h1, h2⟩ := ih
    cases h1
    exact ⟨_, rfl, hg.simple _ _ _ _ h2⟩

/-- Both calls for one file succeed. -/
theorem ensureTrustees_success (os : DllOs) (hg : GrantsAccess os.grant) (path : Bytes) (s : DllState)
    (ho : Succeeds (os.call s.calls)) (ho' : Succeeds (os.call (s.calls + 1)))
    (hd : ∀ sid ∈ packages, ∃ l, s.dacls path = some l ∧ Simple sid l) (sid : Bytes) (hs : sid ∈ packages) :
    mayAccess (· == sid) loadRights ((ensureTrustees os path s).dacls path) = true := by
  rw [ensureTrustees]
  simp only [packages_eq, List.mem_cons, List.not_mem_nil, or_false] at hs
  rcases hs with rfl | rfl
  · obtain ⟨l, h1, h2⟩ := hd ALL_PACKAGES (by simp [packages_eq])
    have := ensureDll_success os hg path ALL_PACKAGES s ho l h1 h2
    exact (evolves_rights hg (ensureDll_evolves os path _ (by simp [packages_eq]) _ path) _ _).1 this
  · obtain ⟨l, h1, h2⟩ := evolves_simple hg
      (ensureDll_evolves os path ALL_PACKAGES (by simp [packages_eq]) s path) _
      (hd ALL_RESTRICTED_PACKAGES (by simp [packages_eq]))
    exact ensureDll_success os hg path _ _ (by rw [ensureDll_calls]; exact ho') l h1 h2

theorem visit_success (os : DllOs) (hg : GrantsAccess os.grant) (dir : Bytes) : ∀ (names : List Bytes) (s : DllState) (i : Nat)
    (name : Bytes), names[i]? = some name → Succeeds (os.call (s.calls + 2 * i)) →
    Succeeds (os.call (s.calls + 2 * i + 1)) →
    (∀ sid ∈ packages, ∃ l, s.dacls (dir ++ name) = some l ∧ Simple sid l) → ∀ sid ∈ packages,
    mayAccess (· == sid) loadRights ((visit os dir names s).dacls (dir ++ name)) = true
  | [], _, _, _, h, _, _, _, _, _ => by simp at h
  | n :: ns, s, 0, name, h, h1, h2, hd, sid, hs => by
    simp only [List.getElem?_cons_zero, Option.some.injEq] at h
    subst h
    exact (evolves_rights hg (visit_evolves os dir _ ns _) _ _).1
      (ensureTrustees_success os hg (dir ++ n) s h1 h2 hd sid hs)
  | n :: ns, s, i + 1, name, h, h1, h2, hd, sid, hs => by
    simp only [List.getElem?_cons_succ] at h
    have e : (ensureTrustees os (dir ++ n) s).calls + 2 * i = s.calls + 2 * (i + 1) := by
      rw [ensureTrustees_calls]; omega
    refine visit_success os hg dir ns (ensureTrustees os (dir ++ n) s) i name h (by rw [e]; exact h1)
      (by rw [e]; exact h2) (fun sid hs => ?_) sid hs
    exact evolves_simple hg (ensureTrustees_evolves os (dir ++ n) s _) sid (hd sid hs)

/-! ## Directories -/

theorem popToBackslash_of {exe dir : Bytes} (h : ExecutableIn exe dir) : popToBackslash exe = dir := by
  obtain ⟨name, rfl, h1, _, h2⟩ := h
  rw [popToBackslash, List.reverse_append, List.dropWhile_append_of_pos]
  · obtain ⟨ys, rfl⟩ := List.getLast?_eq_some_iff.1 h2
    simp
  · intro a ha
    simp only [List.mem_reverse] at ha
    simp only [decide_eq_true_eq]
    rintro rfl; exact h1 ha

theorem popToBackslash_none {exe : Bytes} (h : 92 ∉ exe) : popToBackslash exe = [] := by
  rw [popToBackslash]
  have : ∀ l : Bytes, 92 ∉ l → l.dropWhile (fun b => decide (b ≠ 92)) = [] := by
    intro l
    induction l with
    | nil => intro _; rfl
    | cons b l ih =>
      intro h
      rw [List.dropWhile_cons_of_pos]
      · exact ih fun h' => h (List.mem_cons_of_mem _ h')
      · simp only [decide_eq_true_eq]
        rintro rfl; exact h List.mem_cons_self
  rw [this _ (by simpa using h)]; rfl

theorem withBackslash_of {dir : Bytes} (h : dir.getLast? = some 92) : withBackslash dir = dir := if_pos h

/-! ## A way to grant -/

/-- The new entry comes last. -/
def appendEntry (l : List Ace) (m : BitVec 32) (sid : Bytes) : List Ace := l ++ [⟨0, 0, m, sid⟩]

theorem appendEntry_grants : GrantsAccess appendEntry where
  others l m sid who need h := by
    induction l generalizing need with
    | nil =>
      simp only [appendEntry, List.nil_append, grants]
      split
      · next h => simp [h]
      · rw [if_pos (.inr h)]
    | cons a l ih =>
      have ih' := ih
      simp only [appendEntry] at ih' ⊢
      simp only [List.cons_append, grants, ih']
  more l m sid who need h := by
    induction l generalizing need with
    | nil =>
      simp only [grants, beq_iff_eq] at h
      subst h; exact grants_zero _ _
    | cons a l ih =>
      simp only [appendEntry] at ih ⊢
      simp only [List.cons_append, grants] at h ⊢
      split at h
      · next h0 => rw [if_pos h0]
      next h0 =>
      rw [if_neg h0]
      split at h
      · next h1 => rw [if_pos h1]; exact ih _ h
      next h1 =>
      rw [if_neg h1]
      split at h
      · next h2 => rw [if_pos h2]; exact ih _ h
      next h2 =>
      rw [if_neg h2]
      split at h
      · exact absurd h (by simp)
      · next h3 => rw [if_neg h3]; exact ih _ h
  only l m sid who need h := by
    induction l generalizing need with
    | nil =>
      simp only [appendEntry, List.nil_append, grants] at h ⊢
      split at h
      · next h0 => rw [h0]; simp
      split at h
      · next h0 _ => exact absurd (by simpa using h) h0
      · simpa using h
    | cons a l ih =>
      simp only [appendEntry] at ih h ⊢
      simp only [List.cons_append, grants] at h ⊢
      by_cases h0 : need &&& ~~~m = 0
      · simp [h0]
      · have hn : need ≠ 0 := by rintro rfl; simp at h0
        rw [if_neg h0]; rw [if_neg hn] at h
        split at h
        · next h1 => rw [if_pos h1]; exact ih _ h
        · next h1 =>
          rw [if_neg h1]
          split at h
          · next h2 =>
            rw [if_pos h2]
            have := ih _ h
            rwa [BitVec.and_assoc, BitVec.and_comm (~~~a.mask), ← BitVec.and_assoc] at this
          · next h2 =>
            rw [if_neg h2]
            split at h
            · simp at h
            · next h3 =>
              rw [if_neg]
              · exact ih _ h
              · rintro ⟨h4, h5⟩
                refine h3 ⟨h4, fun h6 => h5 ?_⟩
                rw [← BitVec.and_assoc, h6]; simp
  given l m sid h := by
    refine grants_delegated sid _ ?_ m ⟨⟨0, 0, m, sid⟩, by simp [appendEntry], rfl, by simp, rfl⟩
    intro a ha hs
    simp only [appendEntry, List.mem_append, List.mem_singleton] at ha
    rcases ha with ha | rfl
    · exact h a ha hs
    · exact ⟨(by decide : (0 : BitVec 8) ≠ 1), (by decide : (0 : BitVec 8) &&& 8 = 0)⟩
  simple l m sid sid' h := by
    intro a ha hs
    simp only [appendEntry, List.mem_append, List.mem_singleton] at ha
    rcases ha with ha | rfl
    · exact h a ha hs
    · exact ⟨(by decide : (0 : BitVec 8) ≠ 1), (by decide : (0 : BitVec 8) &&& 8 = 0)⟩

end Iris
