import Verif.Spec.WinUser
import Verif.Lemmas.LogText
import Verif.Props.WinPolicy
/-!
# C123: registry rules for the current user
-/
namespace Iris
open Spec

/-- A text up to the first `c`, where what follows is nothing or begins with `c`. -/
theorem cut_at {c : Char} : ∀ {a b x y : Str}, c ∉ a → c ∉ b → (x = [] ∨ x.head? = some c) → (y = [] ∨ y.head? = some c) →
    a ++ x = b ++ y → a = b ∧ x = y
  | [], [], x, y, _, _, _, _, h => ⟨rfl, h⟩
  | [], d :: b, x, y, _, hb, hx, _, h => by
    simp only [List.nil_append, List.cons_append] at h
    subst h
    rcases hx with hx | hx
    · cases hx
    · simp at hx; subst hx; simp at hb
  | d :: a, [], x, y, ha, _, _, hy, h => by
    simp only [List.nil_append, List.cons_append] at h
    subst h
    rcases hy with hy | hy
    · cases hy
    · simp at hy; subst hy; simp at ha
  | d :: a, e :: b, x, y, ha, hb, hx, hy, h => by
    simp only [List.cons_append, List.cons.injEq] at h
    simp only [List.mem_cons, not_or] at ha hb
    obtain ⟨h1, h2⟩ := cut_at ha.2 hb.2 hx hy h.2
    exact ⟨by rw [h.1, h1], h2⟩

theorem subs_inj : ∀ {l l' : List (BitVec 32)}, (l.flatMap fun n => '-' :: dec n.toNat) = (l'.flatMap fun n => '-' :: dec n.toNat) →
    l = l'
  | [], [], _ => rfl
  | [], n :: l, h => by simp at h
  | n :: l, [], h => by simp at h
  | n :: l, n' :: l', h => by
    simp only [List.flatMap_cons, List.cons_append, List.cons.injEq, true_and] at h
    have hd : ∀ l : List (BitVec 32), (l.flatMap fun n => '-' :: dec n.toNat) = [] ∨
        (l.flatMap fun n => '-' :: dec n.toNat).head? = some '-' := by
      intro l; cases l with
      | nil => exact .inl rfl
      | cons _ _ => exact .inr rfl
    obtain ⟨h1, h2⟩ := cut_at (dec_free (by decide) _) (dec_free (by decide) _) (hd l) (hd l') h
    rw [BitVec.eq_of_toNat_eq (decText_inj h1), subs_inj h2]

theorem Sid.text_inj {s s' : Sid} (h : s.text = s'.text) : s = s' := by
  rw [Sid.text, Sid.text, List.append_assoc, List.append_assoc] at h
  have h := List.append_cancel_left h
  have hd : ∀ l : List (BitVec 32), (l.flatMap fun n => '-' :: dec n.toNat) = [] ∨
      (l.flatMap fun n => '-' :: dec n.toNat).head? = some '-' := by
    intro l; cases l with
    | nil => exact .inl rfl
    | cons _ _ => exact .inr rfl
  have hf : ∀ n : Nat, '-' ∉ (if n < 2 ^ 32 then dec n else hexAlt n) := by
    intro n; split
    · exact dec_free (by decide) _
    · exact hexAlt_free (by decide) _
  obtain ⟨h1, h2⟩ := cut_at (hf _) (hf _) (hd _) (hd _) h
  have hx : ∀ n m : Nat, dec n ≠ hexAlt m := by
    intro n m he
    have : 'x' ∉ dec n := dec_free (by decide) n
    rw [he] at this
    simp [hexAlt] at this
  have ha : s.authority.toNat = s'.authority.toNat := by
    split at h1 <;> split at h1
    · exact decText_inj h1
    · exact absurd h1 (hx _ _)
    · exact absurd h1.symm (hx _ _)
    · exact hexAlt_inj h1
  obtain ⟨a, l⟩ := s
  obtain ⟨a', l'⟩ := s'
  have e1 : a = a' := BitVec.eq_of_toNat_eq ha
  have e2 : l = l' := subs_inj h2
  rw [e1, e2]

theorem Sid.text_plain (s : Sid) : '\\' ∉ s.text := by
  rw [Sid.text]
  simp only [List.mem_append, not_or]
  refine ⟨⟨by decide, ?_⟩, ?_⟩
  · split
    · exact dec_free (by decide) _
    · exact hexAlt_free (by decide) _
  · intro h
    obtain ⟨n, _, h⟩ := List.mem_flatMap.1 h
    simp only [List.mem_cons] at h
    rcases h with h | h
    · cases h
    · exact dec_free (by decide) _ h

theorem Sid.text_ne (s : Sid) : s.text ≠ [] := by
  rw [Sid.text, List.append_assoc]
  intro h; simp at h

/-- **C123**, the user. If the system names the user, that is the one rules are for, and else no rule is made; and
in any case all handles are closed and all texts freed. -/
theorem C123_asks_the_system (os : TokenOs) (s : TokenState) :
    (currentUserSid os s).2 = s ∧
    ∀ t, (currentUserSid os s).1 = some t ↔
      ∃ u, os.user = some u ∧ t = u.text ∧ os.token ≠ none ∧ os.size ≠ 0 ∧ os.converts = true := by
  rw [currentUserSid]
  cases ht : os.token with
  | none => simp
  | some h =>
    by_cases hz : os.size = 0
    · simp [hz]
    · cases hu : os.user with
      | none => simp [hz]
      | some u =>
        cases hc : os.converts with
        | false => simp [hz]
        | true => simp [hz, eq_comm]

/-- **C123**, apart. The hives of different users have nothing in common. -/
theorem C123_hives_apart (u u' : Sid) (path : Str) (h : InHiveOf u path) (h' : InHiveOf u' path) : u = u' := by
  obtain ⟨rest, rfl, hr⟩ := h
  obtain ⟨rest', he, hr'⟩ := h'
  rw [List.append_assoc, List.append_assoc] at he
  exact Sid.text_inj (cut_at (Sid.text_plain u) (Sid.text_plain u') hr hr' (List.append_cancel_left he)).1

theorem trim_prefix (s : Str) : ∃ t, s = trim s ++ t ∧ (t = [] ∨ t = ['\\']) := by
  rw [trim]
  split
  · rename_i h
    obtain ⟨u, hu⟩ := List.getLast?_eq_some_iff.1 h
    exact ⟨['\\'], by rw [hu]; simp, .inr rfl⟩
  · exact ⟨[], by simp, .inl rfl⟩

theorem ownHive_key {u : Sid} {r k : Str} (hr : OwnHive r) (hk : RegKeyName u.text r k) : InHiveOf u k := by
  obtain ⟨rest, rfl, hrest⟩ := hr
  obtain ⟨root, kernel, rest', hm, he, rfl⟩ := hk
  have : root = c!"HKEY_CURRENT_USER" ∧ kernel = c!"\\REGISTRY\\USER\\" ++ u.text ∧ rest = rest' := by
    simp only [regRoots, List.mem_cons, Prod.mk.injEq, List.not_mem_nil, or_false] at hm
    rcases hm with ⟨rfl, rfl⟩ | ⟨rfl, rfl⟩ | ⟨rfl, rfl⟩ | ⟨rfl, rfl⟩ | ⟨rfl, rfl⟩
    · exact ⟨rfl, rfl, List.append_cancel_left he⟩
    all_goals simp at he
  obtain ⟨rfl, rfl, rfl⟩ := this
  rw [trim]
  split
  · rename_i hl
    have hne : rest ≠ [] := by
      rintro rfl
      rw [List.append_nil] at hl
      obtain ⟨v, hv⟩ := List.getLast?_eq_some_iff.1 hl
      have : u.text.getLast? = some '\\' := by
        rw [List.getLast?_append, List.getLast?_eq_some_getLast (Sid.text_ne u)] at hl
        rw [List.getLast?_eq_some_getLast (Sid.text_ne u)]; exact hl
      exact Sid.text_plain u (List.mem_of_getLast? this)
    rw [List.dropLast_append_of_ne_nil hne]
    refine ⟨_, rfl, ?_⟩
    cases rest with
    | nil => exact absurd rfl hne
    | cons c t =>
      cases t with
      | nil => exact .inl rfl
      | cons d t => right; rcases hrest with h | h
                    · cases h
                    · simpa using h
  · exact ⟨rest, rfl, hrest⟩

theorem inHive_below {u : Sid} {k path : Str} (hk : InHiveOf u k) (ha : AtOrAbove k (trim path)) : InHiveOf u path := by
  obtain ⟨rest, rfl, hr⟩ := hk
  obtain ⟨t, ht, ht'⟩ := trim_prefix path
  rw [ht]
  rcases ha with ha | ⟨v, hv⟩
  · refine ⟨rest ++ t, by rw [← ha]; simp, ?_⟩
    rcases hr with rfl | hr
    · rcases ht' with rfl | rfl
      · exact .inl rfl
      · exact .inr rfl
    · right
      cases rest with
      | nil => cases hr
      | cons c rest => simpa using hr
  · refine ⟨rest ++ '\\' :: (v ++ t), by rw [← hv]; simp, .inr ?_⟩
    rcases hr with rfl | hr
    · rfl
    · cases rest with
      | nil => cases hr
      | cons c rest => simpa using hr

/-- **C123**. If all registry rules are for the current user, what is granted is in the hive of that user, and in
that of no other user, whatever the request. Missing: rules which only begin with the name of the root, see
`C123_violated`. -/
theorem C123_only_own_hive_partial (debug : Bool) (os : WinOs) (u : Sid) (hu : os.sid = u.text) (h : List WinCall) (ho : OnlyOwnHive h)
    (path : Str) (access options : BitVec 32) (create : Bool)
    (hg : ((Policy.nothingAllowed.winCalls os h).winEvaluate debug (.regKeyOpen path access options create)).1 = .granted) :
    InHiveOf u path ∧ ∀ u', u' ≠ u → ¬ InHiveOf u' path := by
  have key : InHiveOf u path := by
    rcases (C59_no_excess_access debug os h path access options create hg).2.2.1 with ⟨r, k, h1, h2, h3⟩ | ⟨r, k, h1, h2, h3⟩
    · rw [hu] at h2
      exact inHive_below (ownHive_key (ho r (.inl h1)) h2) h3
    · rw [hu] at h2
      exact inHive_below (ownHive_key (ho r (.inr h1)) h2) h3
  exact ⟨key, fun u' hn h' => hn (C123_hives_apart u' u path h' key)⟩

/-- A user, and one whose identifier goes on with a digit. -/
def aUser : Sid := ⟨5#48, [21#32, 1#32, 2#32, 3#32, 100#32]⟩
def otherUser : Sid := ⟨5#48, [21#32, 1#32, 2#32, 3#32, 1001#32]⟩

/-- **C123**, violated for rules which only begin with the root: such a rule is in the hive of another user. -/
theorem C123_violated :
    ((Policy.nothingAllowed.winCalls { plainOs with sid := aUser.text } [.regRead c!"HKEY_CURRENT_USER1"]).winEvaluate false
      (.regKeyOpen (c!"\\REGISTRY\\USER\\" ++ otherUser.text ++ c!"\\Software") 1 0 false)).1 = .granted ∧
    InHiveOf otherUser (c!"\\REGISTRY\\USER\\" ++ otherUser.text ++ c!"\\Software") ∧ otherUser ≠ aUser :=
  ⟨by decide +kernel, ⟨c!"\\Software", rfl, .inr rfl⟩, by decide⟩

/-- C123: a rule for the current user, granted there and not to the other; the user is asked of the system. -/
example :
    OnlyOwnHive [.regRead c!"HKEY_CURRENT_USER\\Software", .addLogCallback 3] ∧
    ((Policy.nothingAllowed.winCalls { plainOs with sid := aUser.text }
        [.regRead c!"HKEY_CURRENT_USER\\Software", .addLogCallback 3]).winEvaluate false
      (.regKeyOpen (c!"\\REGISTRY\\USER\\S-1-5-21-1-2-3-100\\Software\\x") 1 0 false)).1 = .granted ∧
    currentUserSid ⟨some 0x40#64, 44, some aUser, true⟩ ⟨[0x40#64], []⟩ =
      (some c!"S-1-5-21-1-2-3-100", ⟨[0x40#64], []⟩) := by
  refine ⟨?_, by decide +kernel, by decide +kernel⟩
  intro r hr
  simp at hr
  exact ⟨c!"\\Software", by rw [hr]; rfl, .inr rfl⟩

end Iris
