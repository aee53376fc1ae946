import Verif.Lemmas.WinDlls
/-!
# C98, C99: what starting a Windows worker does to the permissions of files
-/
namespace Iris
open Spec

/-! ## C98: only the right to load DLLs is added -/

/-- **C98**, the rights. Whatever fails: nobody loses a right on any file, only the rights needed to load a DLL are
new, and they are new only for those who belong to the application packages. -/
theorem C98_rights (os : DllOs) (hg : GrantsAccess os.grant) (exe windowsDir : Bytes) (s : DllState) (path : Bytes)
    (who : Bytes → Bool) (need : BitVec 32) :
    (mayAccess who need (s.dacls path) = true →
      mayAccess who need ((delegateDlls os exe windowsDir s).dacls path) = true) ∧
    (mayAccess who need ((delegateDlls os exe windowsDir s).dacls path) = true →
      mayAccess who (need &&& ~~~loadRights) (s.dacls path) = true) ∧
    ((∀ sid ∈ packages, who sid = false) →
      mayAccess who need ((delegateDlls os exe windowsDir s).dacls path) = mayAccess who need (s.dacls path)) := by
  refine evolves_rights hg ?_ who need
  rw [delegateDlls, ensureDlls_visit, ensureDlls_visit]
  exact (visit_evolves os _ path _ s).trans (visit_evolves os _ path _ _)

/-- A file that has no list stays as it is. -/
theorem C98_no_list (os : DllOs) (exe windowsDir : Bytes) (s : DllState) (path : Bytes) (h : s.dacls path = none) :
    (delegateDlls os exe windowsDir s).dacls path = none := by
  have : Evolves os.grant (s.dacls path) ((delegateDlls os exe windowsDir s).dacls path) := by
    rw [delegateDlls, ensureDlls_visit, ensureDlls_visit]
    exact (visit_evolves os _ path _ s).trans (visit_evolves os _ path _ _)
  rw [h] at this
  generalize (delegateDlls os exe windowsDir s).dacls path = e at this
  generalize hd : (none : Option (List Ace)) = d at this
  induction this with
  | refl => rfl
  | step h _ ih => exact absurd (hd.trans ih.symm) (by simp)

/-- **C98**, the files, as far as it is true. Only the permissions of DLLs in the directory of the executable and in
the Windows directory change. Missing: paths of executables with slashes, or without a directory. -/
theorem C98_files_partial (os : DllOs) (exe dir windowsDir : Bytes) (s : DllState) (path : Bytes)
    (he : ExecutableIn exe dir)
    (hc : (delegateDlls os exe windowsDir s).dacls path ≠ s.dacls path) :
    ∃ d name, path = d ++ name ∧ ListedDll os d name ∧
      (d = dir ∨ d = windowsDir ++ [92] ∨ d = windowsDir ∧ windowsDir.getLast? = some 92) := by
  rw [delegateDlls, ensureDlls_visit, ensureDlls_visit, popToBackslash_of he, withBackslash_of he.choose_spec.2.2.2] at hc
  by_cases h1 : ∃ name, ListedDll os dir name ∧ path = dir ++ name
  · obtain ⟨name, h, rfl⟩ := h1
    exact ⟨_, _, rfl, h, .inl rfl⟩
  by_cases h2 : ∃ name, ListedDll os (withBackslash windowsDir) name ∧ path = withBackslash windowsDir ++ name
  · obtain ⟨name, h, rfl⟩ := h2
    refine ⟨_, _, rfl, h, .inr ?_⟩
    rw [withBackslash]
    split
    · next h => exact .inr ⟨rfl, h⟩
    · exact .inl rfl
  · refine absurd ?_ hc
    rw [visit_other _ _ _ _ _ (fun n hn hp => h2 ⟨n, hn, hp⟩), visit_other _ _ _ _ _ (fun n hn hp => h1 ⟨n, hn, hp⟩)]

/-- Everything works, the only DLL anywhere is `x.dll` in the root directory of the current drive. -/
def rootDllOs : DllOs where
  call _ := ⟨.ok (), .ok (), fun _ => .ok (), .ok (), .ok ()⟩
  grant := appendEntry
  find p := if p = utf8 c!"\\*.dll" then ([utf8 c!"x.dll"], 18) else ([], 2)

/-- With slashes in the path of the executable, other files are changed: here `\x.dll`, to which nobody had access. -/
theorem C98_other_directory_violated :
    (delegateDlls rootDllOs (utf8 c!"D:/app/w.exe") (utf8 c!"C:\\Windows") ⟨fun _ => some [], 0⟩).dacls (utf8 c!"\\x.dll") =
      some (packages.map fun sid => ⟨0, 0, 0x1200A9, sid⟩) := by decide +kernel

/-! ## C99: DLLs can be loaded -/

/-- **C99**, as far as it is true. If the calls for a DLL of the executable's directory succeed, all packages may load it
afterwards, whatever happened to other files. Missing: DLLs with no list, with entries that deny something to a
package, or with entries only to be inherited; and executables as in C98. -/
theorem C99_loadable_partial (os : DllOs) (hg : GrantsAccess os.grant) (exe dir windowsDir : Bytes) (s : DllState)
    (he : ExecutableIn exe dir) (i : Nat) (name : Bytes)
    (hn : (os.find (dir ++ utf8 c!"*.dll")).1[i]? = some name)
    (h1 : Succeeds (os.call (s.calls + 2 * i))) (h2 : Succeeds (os.call (s.calls + 2 * i + 1)))
    (l : List Ace) (hl : s.dacls (dir ++ name) = some l) (hs : ∀ sid ∈ packages, Simple sid l)
    (sid : Bytes) (hsid : sid ∈ packages) :
    mayAccess (· == sid) loadRights ((delegateDlls os exe windowsDir s).dacls (dir ++ name)) = true := by
  rw [delegateDlls, ensureDlls_visit, ensureDlls_visit, popToBackslash_of he, withBackslash_of he.choose_spec.2.2.2]
  refine (evolves_rights hg (visit_evolves os _ _ _ _) _ _).1 ?_
  exact visit_success os hg dir _ s i name hn h1 h2 (fun sid hsid => ⟨l, hl, hs sid hsid⟩) sid hsid

/-- The same for the Windows directory, whose files come after. -/
theorem C99_windows_directory_partial (os : DllOs) (hg : GrantsAccess os.grant) (exe dir windowsDir : Bytes) (s : DllState)
    (he : ExecutableIn exe dir) (hw : windowsDir.getLast? ≠ some 92) (i : Nat) (name : Bytes)
    (hn : (os.find (windowsDir ++ [92] ++ utf8 c!"*.dll")).1[i]? = some name) (k : Nat)
    (hk : k = s.calls + 2 * (os.find (dir ++ utf8 c!"*.dll")).1.length + 2 * i)
    (h1 : Succeeds (os.call k)) (h2 : Succeeds (os.call (k + 1)))
    (l : List Ace) (hl : s.dacls (windowsDir ++ [92] ++ name) = some l) (hs : ∀ sid ∈ packages, Simple sid l)
    (sid : Bytes) (hsid : sid ∈ packages) :
    mayAccess (· == sid) loadRights
      ((delegateDlls os exe windowsDir s).dacls (windowsDir ++ [92] ++ name)) = true := by
  have ew : withBackslash windowsDir = windowsDir ++ [92] := if_neg hw
  rw [delegateDlls, ensureDlls_visit, ensureDlls_visit, popToBackslash_of he, withBackslash_of he.choose_spec.2.2.2, ew]
  have ec := visit_calls os dir (os.find (dir ++ utf8 c!"*.dll")).1 s
  refine visit_success os hg _ _ _ i name hn (by rw [ec, ← hk]; exact h1) (by rw [ec, ← hk]; exact h2) ?_ sid hsid
  intro sid hsid
  exact evolves_simple hg (visit_evolves os _ _ _ _) sid ⟨l, hl, hs sid hsid⟩

/-- With an entry that is only to be inherited nothing is done: the package cannot load the DLL, although every call
succeeds. -/
theorem C99_inherit_only_violated (os : DllOs) (h : ∀ n, Succeeds (os.call n)) (path : Bytes) (s : DllState)
    (hl : s.dacls path = some (packages.map fun sid => ⟨0, 8, 0x1200A9, sid⟩)) :
    (ensureTrustees os path s).dacls = s.dacls ∧
    ∀ sid ∈ packages, mayAccess (· == sid) loadRights (s.dacls path) = false := by
  constructor
  · have h0 : ∀ sid ∈ packages, ∀ t : DllState,
        t.dacls path = some (packages.map fun sid => ⟨0, 8, 0x1200A9, sid⟩) →
        (ensureDll os path sid t).2.dacls = t.dacls := by
      intro sid hsid t ht
      obtain ⟨g1, g2, g3, _, _⟩ := h t.calls
      rw [ensureDll]
      simp only [g1, g2, ht, delegated_ok _ g3]
      have : (packages.map fun sid => (⟨0, 8, 0x1200A9, sid⟩ : Ace)).any (fun a =>
          decide (a.kind = ACCESS_ALLOWED) && decide (a.mask &&& LOAD_DLL = LOAD_DLL) && decide (a.sid = sid)) = true := by
        simp only [packages_eq, List.mem_cons, List.not_mem_nil, or_false] at hsid
        rcases hsid with rfl | rfl <;> decide
      rw [this]
    have e1 := h0 ALL_PACKAGES (by simp [packages_eq]) s hl
    rw [ensureTrustees, h0 ALL_RESTRICTED_PACKAGES (by simp [packages_eq]) _ (by rw [e1]; exact hl), e1]
  · rw [hl]
    simp only [packages, List.mem_cons, List.not_mem_nil, or_false, forall_eq_or_imp, forall_eq]
    decide +kernel

/-- The directory counts as done unless the listing stopped with an error: 2 says that there is no DLL, 18 that there
are no more. Otherwise the error of the listing is reported. -/
theorem C99_listing_reported (os : DllOs) (folder : Bytes) (s : DllState) (e : BitVec 32) :
    (ensureDlls os folder s).1 = .error e ↔
      ∃ names, os.find (withBackslash folder ++ utf8 c!"*.dll") = (names, e) ∧
        (names = [] → e ≠ 2) ∧ (names ≠ [] → e ≠ 18) := by
  have : utf8 c!"*.dll" = [42, 46, 100, 108, 108] := by decide +kernel
  rw [this, ensureDlls]
  generalize os.find (withBackslash folder ++ [42, 46, 100, 108, 108]) = r
  obtain ⟨names, e'⟩ := r
  cases names with
  | nil =>
    have e0 : ERROR_FILE_NOT_FOUND = 2 := rfl
    simp only [Prod.mk.injEq]
    by_cases h : e' = 2
    · rw [if_pos (h.trans e0.symm)]; subst h; simp; exact Eq.symm
    · rw [if_neg (fun q => h (q.trans e0))]
      simp only [Except.error.injEq]
      exact ⟨fun q => ⟨[], ⟨rfl, q⟩, fun _ => q ▸ h, fun n => absurd rfl n⟩, fun ⟨_, q, _⟩ => q.2⟩
  | cons n l =>
    have e0 : ERROR_NO_MORE_FILES = 18 := rfl
    simp only [Prod.mk.injEq]
    by_cases h : e' = 18
    · rw [if_pos (h.trans e0.symm)]; subst h; simp; exact Eq.symm
    · rw [if_neg (fun q => h (q.trans e0))]
      simp only [Except.error.injEq]
      exact ⟨fun q => ⟨n :: l, ⟨rfl, q⟩, fun n => by simp at n, fun _ => q ▸ h⟩, fun ⟨_, q, _⟩ => q.2⟩

/-- A file whose permissions may not be read or changed is passed over without an error, as it is. -/
theorem C99_denied_is_passed_over (os : DllOs) (path sid : Bytes) (s : DllState)
    (h : (os.call s.calls).getInfo = .error 5 ∨
      Succeeds { os.call s.calls with setInfo := .ok () } ∧ (os.call s.calls).setInfo = .error 5 ∧ s.dacls path ≠ none) :
    (ensureDll os path sid s).1 = .ok () ∧ (ensureDll os path sid s).2.dacls = s.dacls := by
  rw [ensureDll]
  rcases h with h | ⟨⟨h1, h2, h3, h4, _⟩, h5, h6⟩
  · simp [h, ERROR_ACCESS_DENIED]
  · simp only at h1 h2 h3 h4
    simp only [h1, h2, h4, h5]
    cases hd : s.dacls path with
    | none => exact absurd hd h6
    | some l =>
      simp only [delegated_ok _ h3]
      simp only [ERROR_ACCESS_DENIED]
      split <;> simp_all

/-! ## A case -/

/-- A system on which everything works: one DLL next to the executable. -/
def oneDllOs : DllOs where
  call _ := ⟨.ok (), .ok (), fun _ => .ok (), .ok (), .ok ()⟩
  grant := appendEntry
  find p := if p = utf8 c!"C:\\app\\*.dll" then ([utf8 c!"a.dll"], 18) else ([], 2)

example : GrantsAccess oneDllOs.grant := appendEntry_grants
example : ExecutableIn (utf8 c!"C:\\app\\w.exe") (utf8 c!"C:\\app\\") :=
  ⟨utf8 c!"w.exe", by decide +kernel⟩
example : ∀ n, Succeeds (oneDllOs.call n) := fun _ => ⟨rfl, rfl, fun _ => rfl, rfl, rfl⟩
example : ∀ sid ∈ packages, Simple sid [⟨0, 0, 0x1F01FF, [1]⟩] := by
  simp only [packages, List.mem_cons, List.not_mem_nil, or_false, forall_eq_or_imp, forall_eq, Simple]
  decide +kernel
example : (delegateDlls oneDllOs (utf8 c!"C:\\app\\w.exe") (utf8 c!"C:\\Windows") ⟨fun _ => some [⟨0, 0, 0x1F01FF, [1]⟩], 0⟩).dacls
    (utf8 c!"C:\\app\\a.dll") = some (⟨0, 0, 0x1F01FF, [1]⟩ :: packages.map fun sid => ⟨0, 0, 0x1200A9, sid⟩) := by
  decide +kernel

end Iris
