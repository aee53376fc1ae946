import Verif.Spec.WinProcess
import Verif.Props.Process
/-! Lemmas about the creation of a Windows worker. -/
namespace Iris
open Spec

/-! ## Command lines -/

theorem arguments_plain (q : Bool) (s : Bytes) (h34 : 34 ∉ s) (hb : q = false → ∀ b ∈ s, blank b = false) :
    ∀ n cur rest, ∃ n' cur', otherArguments q n cur (s ++ rest) = otherArguments q n' cur' rest ∧
      cur'.getD [] ++ List.replicate n' 92 = cur.getD [] ++ List.replicate n 92 ++ s ∧
      (s = [] → n' = n ∧ cur' = cur) ∧ (s ≠ [] → ¬ (cur' = none ∧ n' = 0)) ∧
      (∀ x, s.getLast? = some x → x ≠ 92 → n' = 0) := by
  induction s with
  | nil =>
    intro n cur rest
    exact ⟨n, cur, rfl, by simp, fun _ => ⟨rfl, rfl⟩, fun h => absurd rfl h, by simp⟩
  | cons b s ih =>
    intro n cur rest
    have ih := ih (fun h => h34 (List.mem_cons_of_mem _ h)) (fun h b hm => hb h b (List.mem_cons_of_mem _ hm))
    have hb34 : b ≠ 34 := fun h => h34 (by simp [h])
    by_cases h92 : b = 92
    · obtain ⟨n', cur', h1, h2, h3, h4, h5⟩ := ih (n + 1) cur rest
      refine ⟨n', cur', ?_, ?_, by simp, fun _ hc => ?_, fun x hx hne => ?_⟩
      · rw [List.cons_append, otherArguments.eq_def]; simp only [if_pos h92]; exact h1
      · rw [h2, h92, List.replicate_succ']; simp
      · cases s with
        | nil => have := (h3 rfl).1; omega
        | cons c s => exact h4 (by simp) hc
      · cases s with
        | nil => simp at hx; exact absurd (hx.symm.trans h92) hne
        | cons c s => exact h5 x (by simpa using hx) hne
    · obtain ⟨n', cur', h1, h2, h3, h4, h5⟩ := ih 0 (some (cur.getD [] ++ List.replicate n 92 ++ [b])) rest
      have hbq : (blank b && !q) = false := by
        cases q with
        | true => simp
        | false => simp [hb rfl b (by simp)]
      refine ⟨n', cur', ?_, ?_, by simp, fun _ hc => ?_, fun x hx hne => ?_⟩
      · rw [List.cons_append, otherArguments.eq_def]
        simp only [if_neg h92, if_neg hb34, hbq, Bool.false_eq_true, if_false]; exact h1
      · rw [h2]; simp
      · cases s with
        | nil => have := (h3 rfl).2; rw [this] at hc; cases hc.1
        | cons c s => exact h4 (by simp) hc
      · cases s with
        | nil => exact (h3 rfl).1
        | cons c s => exact h5 x (by simpa using hx) hne

theorem arguments_end (n : Nat) (cur : Option Bytes) (t : Bytes) (h : ¬ (cur = none ∧ n = 0))
    (ht : t = [] ∨ ∃ t', t = 32 :: t') :
    otherArguments false n cur t = (cur.getD [] ++ List.replicate n 92) :: otherArguments false 0 none t := by
  rcases ht with rfl | ⟨t, rfl⟩
  · rw [otherArguments, if_neg h, otherArguments, if_pos ⟨rfl, rfl⟩]
  · rw [otherArguments.eq_def, otherArguments.eq_def]
    simp [blank, h]

theorem arguments_of_quoted (args : List Bytes) : args.flatMap winQuoted = [] ∨ ∃ t, args.flatMap winQuoted = 32 :: t := by
  cases args with
  | nil => exact .inl rfl
  | cons a as => exact .inr ⟨_, by rw [List.flatMap_cons, winQuoted]; rfl⟩

theorem arguments_blank (t : Bytes) : otherArguments false 0 none (32 :: t) = otherArguments false 0 none t := by
  rw [otherArguments.eq_def]; simp [blank]

theorem arguments_quoted (args : List Bytes) (h : ∀ a ∈ args, PlainArgument a) :
    otherArguments false 0 none (args.flatMap winQuoted) = args := by
  induction args with
  | nil => rfl
  | cons a as ih =>
    have ih := ih fun b hb => h b (List.mem_cons_of_mem _ hb)
    obtain ⟨h1, h2, h3, h4⟩ := h a (by simp)
    have ht := arguments_of_quoted as
    generalize hT : as.flatMap winQuoted = t at ih ht
    rw [List.flatMap_cons, hT, winQuoted]
    by_cases hs : 32 ∈ a
    · have hc : a.contains 32 = true := by simpa using hs
      have e : [32] ++ (if a.contains 32 = true then [34] else []) ++ a ++ (if a.contains 32 = true then [34] else []) ++ t =
          32 :: 34 :: (a ++ 34 :: t) := by rw [hc]; simp
      rw [e, arguments_blank, otherArguments.eq_def]
      simp only [show ¬ (34 : UInt8) = 92 from by decide, if_false, if_true, Nat.zero_mod, Nat.zero_div,
        Bool.false_eq_true, show ¬ (0 : Nat) = 1 from by decide]
      obtain ⟨n', cur', e1, e2, _, e4, e5⟩ := arguments_plain true a h2 (by simp) 0 (some []) (34 :: t)
      simp only [Option.getD_none, List.replicate_zero, List.append_nil]
      rw [e1]
      have hn : n' = 0 := by
        cases hl : a.getLast? with
        | none => exact absurd (List.getLast?_eq_none_iff.1 hl) h1
        | some x => exact e5 x hl fun hx => h4 hs (by rw [hl, hx])
      subst hn
      have hcur : cur'.getD [] = a := by simpa using e2
      have hstep : otherArguments true 0 cur' (34 :: t) = otherArguments false 0 (some a) t := by
        rw [otherArguments.eq_def]
        simp only [show ¬ (34 : UInt8) = 92 from by decide, if_false, if_true, Nat.zero_mod, Nat.zero_div,
          List.replicate_zero, List.append_nil, hcur, show ¬ (0 : Nat) = 1 from by decide]
        rcases ht with rfl | ⟨t', rfl⟩ <;> rfl
      rw [hstep, arguments_end 0 (some a) t (by simp) ht, ih]
      simp
    · have hc : a.contains 32 = false := by simpa using hs
      have e : [32] ++ (if a.contains 32 = true then [34] else []) ++ a ++ (if a.contains 32 = true then [34] else []) ++ t =
          32 :: (a ++ t) := by rw [hc]; simp
      have hbl : ∀ b ∈ a, blank b = false := by
        intro b hb
        simp only [blank, Bool.or_eq_false_iff, beq_eq_false_iff_ne]
        exact ⟨fun hh => hs (hh ▸ hb), fun hh => h3 (hh ▸ hb)⟩
      obtain ⟨n', cur', e1, e2, _, e4, _⟩ := arguments_plain false a h2 (fun _ => hbl) 0 none t
      rw [e, arguments_blank, e1, arguments_end n' cur' t (e4 h1) ht, ih, e2]
      simp

theorem programName_quoted (exe t : Bytes) (h : 34 ∉ exe) :
    programName true (exe ++ 34 :: t) = (exe ++ (programName false t).1, (programName false t).2) := by
  induction exe with
  | nil => simp [programName]
  | cons b exe ih =>
    have hb : b ≠ 34 := fun e => h (by simp [e])
    have ih := ih fun hh => h (List.mem_cons_of_mem _ hh)
    rw [List.cons_append, programName, if_neg hb, if_neg (by simp), ih]
    rfl

theorem parsed_line (exe : Bytes) (args : List Bytes) (h : 34 ∉ exe) (ha : ∀ a ∈ args, PlainArgument a) :
    parsedArguments ([34] ++ exe ++ [34] ++ args.flatMap winQuoted) = exe :: args := by
  have hq := arguments_quoted args ha
  have ht := arguments_of_quoted args
  generalize args.flatMap winQuoted = t at hq ht
  have hp : programName false ([34] ++ exe ++ [34] ++ t) = (exe ++ (programName false t).1, (programName false t).2) := by
    have : [34] ++ exe ++ [34] ++ t = 34 :: (exe ++ 34 :: t) := by simp
    rw [this, programName, if_pos rfl]
    exact programName_quoted exe t h
  rw [parsedArguments, hp]
  rcases ht with rfl | ⟨t, rfl⟩
  · simp only [programName, List.append_nil]
    rw [hq]
  · have : programName false (32 :: t) = ([], t) := by
      rw [programName, if_neg (by decide), if_pos (by decide)]
    rw [this, ← hq, arguments_blank]
    simp

/-! ## Environment -/

theorem explicitlySet_iff (name : Bytes) (entries : List Bytes) :
    explicitlySet name entries = true ↔ ∃ e ∈ entries, GivesValue e name := by
  simp only [explicitlySet, List.any_eq_true]
  refine exists_congr fun e => and_congr_right fun _ => ?_
  simp only [Bool.and_eq_true, decide_eq_true_eq, beq_iff_eq, eqSign, GivesValue]
  constructor
  · rintro ⟨⟨h1, h2⟩, h3⟩
    obtain ⟨h4, h5⟩ := List.getElem?_eq_some_iff.1 h3
    refine ⟨e.drop (name.length + 1), ?_⟩
    have : e = e.take name.length ++ e[name.length] :: e.drop (name.length + 1) := by
      rw [← List.drop_eq_getElem_cons h4, List.take_append_drop]
    rw [h2, h5] at this
    rw [List.append_assoc]
    exact this.symm
  · rintro ⟨t, rfl⟩
    simp

theorem utf8_entry (n v : Str) : utf8 (n ++ '=' :: v) = utf8 n ++ 61 :: utf8 v := by
  rw [utf8_append]
  rfl

/-- What is added for a variable. -/
def addedFor (sys : Str → Option Str) (envp : List Bytes) (v : Str × Option Str) : Option Bytes :=
  if explicitlySet (utf8 v.1) envp then none else (passedValue sys v).map fun x => utf8 v.1 ++ 61 :: utf8 x

theorem mergeVar_eq (sys : Str → Option Str) (envp : List Bytes) (v : Str × Option Str) :
    mergeVar sys envp v = envp ++ (addedFor sys envp v).toList := by
  simp only [mergeVar, addedFor]
  by_cases h : explicitlySet (utf8 v.1) envp = true
  · simp [h]
  · simp only [h, Bool.false_eq_true, if_false, passedValue]
    cases v.2 with
    | some f => simp [utf8_entry]
    | none =>
      simp only
      cases sys v.1 <;> simp [utf8_entry]

theorem gives_name {e name : Bytes} (h : GivesValue e name) (hn : 61 ∉ name) : nameFromEnv e = name := by
  obtain ⟨t, rfl⟩ := h
  rw [List.append_assoc]
  exact nameFromEnv_append name t hn

theorem explicitlySet_added (sys : Str → Option Str) (envp : List Bytes) (v w : Str × Option Str)
    (hv : 61 ∉ utf8 v.1) (hw : 61 ∉ utf8 w.1) (hne : utf8 v.1 ≠ utf8 w.1) :
    explicitlySet (utf8 w.1) (envp ++ (addedFor sys envp v).toList) = explicitlySet (utf8 w.1) envp := by
  rw [Bool.eq_iff_iff, explicitlySet_iff, explicitlySet_iff]
  constructor
  · rintro ⟨e, he, hg⟩
    rcases List.mem_append.1 he with he | he
    · exact ⟨e, he, hg⟩
    · exfalso
      simp only [Option.mem_toList, addedFor] at he
      split at he
      · cases he
      · simp only [Option.map_eq_some_iff] at he
        obtain ⟨x, -, rfl⟩ := he
        have h1 := gives_name hg hw
        rw [show (61 : UInt8) = eqSign from rfl, nameFromEnv_append _ _ hv] at h1
        exact hne h1
  · rintro ⟨e, he, hg⟩
    exact ⟨e, List.mem_append_left _ he, hg⟩

theorem filterMap_same {α β : Type} {f g : α → Option β} {l : List α} (h : ∀ a ∈ l, f a = g a) :
    l.filterMap f = l.filterMap g := by
  induction l with
  | nil => rfl
  | cons a l ih =>
    rw [List.filterMap_cons, List.filterMap_cons, h a (by simp), ih fun b hb => h b (List.mem_cons_of_mem _ hb)]

theorem mergeFold (sys : Str → Option Str) (l : List (Str × Option Str)) (hnd : (l.map fun v => utf8 v.1).Nodup)
    (hl : ∀ v ∈ l, 61 ∉ utf8 v.1) (envp : List Bytes) :
    l.foldl (mergeVar sys) envp = envp ++ l.filterMap (addedFor sys envp) := by
  induction l generalizing envp with
  | nil => simp
  | cons v l ih =>
    simp only [List.map_cons, List.nodup_cons, List.mem_map, not_exists, not_and] at hnd
    rw [List.foldl_cons, ih hnd.2 (fun w hw => hl w (List.mem_cons_of_mem _ hw)), mergeVar_eq, List.append_assoc]
    congr 1
    have : l.filterMap (addedFor sys (envp ++ (addedFor sys envp v).toList)) = l.filterMap (addedFor sys envp) := by
      refine filterMap_same fun w hw => ?_
      have := explicitlySet_added sys envp v w (hl v (by simp)) (hl w (List.mem_cons_of_mem _ hw))
        (fun h => hnd.1 w hw h.symm)
      rw [addedFor, this]
      rfl
    rw [this, List.filterMap_cons]
    cases addedFor sys envp v <;> simp

theorem sanitized_nodup : (sanitizedEnvironment.map fun v => utf8 v.1).Nodup := by decide +kernel

theorem sanitized_names : ∀ v ∈ sanitizedEnvironment, (61 : UInt8) ∉ utf8 v.1 := by decide +kernel

theorem blockStrings_entry (e cur rest : Bytes) (h : (0 : UInt8) ∉ e) :
    blockStrings cur (e ++ rest) = blockStrings (cur ++ e) rest := by
  induction e generalizing cur with
  | nil => simp
  | cons b e ih =>
    have hb : b ≠ 0 := fun hb => h (by simp [hb])
    rw [List.cons_append, blockStrings, if_neg hb, ih _ fun hh => h (List.mem_cons_of_mem _ hh)]
    simp

theorem blockStrings_block (l : List Bytes) (h : ∀ e ∈ l, e ≠ [] ∧ (0 : UInt8) ∉ e) :
    blockStrings [] (envBlock l) = some l := by
  induction l with
  | nil => rfl
  | cons e l ih =>
    have ih := ih fun x hx => h x (List.mem_cons_of_mem _ hx)
    rw [envBlock] at ih ⊢
    rw [List.flatMap_cons, List.append_assoc, List.append_assoc, blockStrings_entry _ _ _ (h e (by simp)).2]
    rw [List.nil_append, List.cons_append, List.nil_append, blockStrings, if_pos rfl, if_neg (h e (by simp)).1, ih,
      Option.map_some]

/-! ## Attributes -/

theorem mem_dedupSorted (l : List (BitVec 64)) (x : BitVec 64) : x ∈ dedupSorted l ↔ x ∈ l := by
  fun_induction dedupSorted l with
  | case1 => rfl
  | case2 => rfl
  | case3 b l ih => rw [ih]; simp
  | case4 a b l h ih => rw [List.mem_cons, ih, List.mem_cons (l := b :: l)]

theorem nodup_dedupSorted (l : List (BitVec 64)) (h : l.Pairwise (fun a b => a.toNat ≤ b.toNat)) :
    (dedupSorted l).Nodup := by
  fun_induction dedupSorted l with
  | case1 => simp
  | case2 => simp
  | case3 b l ih => exact ih (List.pairwise_cons.1 h).2
  | case4 a b l hab ih =>
    have h' := List.pairwise_cons.1 h
    refine List.nodup_cons.2 ⟨fun hm => ?_, ih h'.2⟩
    rw [mem_dedupSorted] at hm
    have h1 := h'.1 b (by simp)
    have h2 : b.toNat ≤ a.toNat := by
      rcases List.mem_cons.1 hm with rfl | hm
      · exact Nat.le_refl _
      · exact (List.pairwise_cons.1 h'.2).1 a hm
    exact hab (BitVec.eq_of_toNat_eq (by omega))

theorem mem_insertSorted (x y : BitVec 64) (l : List (BitVec 64)) : y ∈ insertSorted x l ↔ y = x ∨ y ∈ l := by
  induction l with
  | nil => simp [insertSorted]
  | cons z l ih =>
    simp only [insertSorted]
    split
    · simp
    · simp only [List.mem_cons, ih]
      constructor
      · rintro (h | h | h)
        · exact .inr (.inl h)
        · exact .inl h
        · exact .inr (.inr h)
      · rintro (h | h | h)
        · exact .inr (.inl h)
        · exact .inl h
        · exact .inr (.inr h)

theorem sorted_insertSorted (x : BitVec 64) (l : List (BitVec 64)) (h : l.Pairwise (fun a b => a.toNat ≤ b.toNat)) :
    (insertSorted x l).Pairwise (fun a b => a.toNat ≤ b.toNat) := by
  induction l with
  | nil => simp [insertSorted]
  | cons z l ih =>
    have h' := List.pairwise_cons.1 h
    simp only [insertSorted]
    split
    · rename_i hx
      refine List.pairwise_cons.2 ⟨fun y hy => ?_, h⟩
      rcases List.mem_cons.1 hy with rfl | hy
      · exact hx
      · have := h'.1 y hy; omega
    · rename_i hx
      refine List.pairwise_cons.2 ⟨fun y hy => ?_, ih h'.2⟩
      rcases (mem_insertSorted x y l).1 hy with rfl | hy
      · omega
      · exact h'.1 y hy

theorem exact_handles (inherited : List (BitVec 64)) : ExactHandles inherited (handlesToInherit inherited) := by
  have h : (inherited.foldr insertSorted []).Pairwise (fun a b => a.toNat ≤ b.toNat) ∧
      ∀ x, x ∈ inherited.foldr insertSorted [] ↔ x ∈ inherited := by
    induction inherited with
    | nil => simp
    | cons a l ih =>
      refine ⟨sorted_insertSorted _ _ ih.1, fun x => ?_⟩
      rw [List.foldr_cons, mem_insertSorted, ih.2, List.mem_cons]
  exact ⟨nodup_dedupSorted _ h.1, fun x => by rw [handlesToInherit, mem_dedupSorted, h.2]⟩

theorem trySet_some {w : Bool} {r : WinRound} {a : ProcAttr} {as as' : List ProcAttr} (h : trySet w r a as = some as') :
    as' = as ++ if w then [a] else [] := by
  cases w with
  | false => simp [trySet] at h; simp [h]
  | true =>
    simp only [trySet, if_true] at h
    split at h
    · simpa using h.symm
    · cases h

theorem trySet_none {w : Bool} {r : WinRound} {a : ProcAttr} {as : List ProcAttr} (h : trySet w r a as = none) :
    w = true ∧ r.setOk a = false := by
  cases w with
  | false => simp [trySet] at h
  | true =>
    simp only [trySet, if_true] at h
    split at h
    · cases h
    · exact ⟨rfl, by simpa using ‹¬ r.setOk a = true›⟩

/-- Every protection that is off was refused. -/
structure Justified (supported : Bool) (inherited : List (BitVec 64)) (rounds : Nat → WinRound) (f : WinFlags) : Prop where
  h0 : f.appContainer = false → Refused supported inherited rounds 0
  h1 : f.lessPrivileged = false → Refused supported inherited rounds 1
  h2 : f.filterHandles = false → Refused supported inherited rounds 2
  h3 : f.blockChildren = false → Refused supported inherited rounds 3
  h4 : f.mitigations = false → Refused supported inherited rounds 4

/-- How many more times the loop can be repeated. -/
def WinFlags.weight (f : WinFlags) : Nat :=
  f.appContainer.toNat + (f.appContainer && f.lessPrivileged).toNat + f.filterHandles.toNat + f.blockChildren.toNat
    + f.mitigations.toNat

/-- What is known of an iteration. -/
def AttemptOk (supported : Bool) (inherited : List (BitVec 64)) (rounds : Nat → WinRound) (k : Nat) (f : WinFlags)
    (s : WinStart) : WinAttempt → Prop
  | .again f' s' => Justified supported inherited rounds f' ∧ f'.weight < f.weight ∧
      ∃ cs, s'.calls = s.calls ++ cs ∧ ∀ c ∈ cs, GoodCall inherited c
  | .created p s' => ∃ c, s'.calls = s.calls ++ [c] ∧ GoodCall inherited c ∧
      (∀ kind < 5, kind ∈ c.attributes.map attrKind ∨ Refused supported inherited rounds kind) ∧
      p.pid = (rounds k).pid ∧ p.pid ≠ 0#32 ∧ (rounds k).createOk = true ∧
      (∀ id, p.profile = some id ↔ .securityCapabilities id ∈ c.attributes)
  | .failed s' => (∃ cs, s'.calls = s.calls ++ cs ∧ ∀ c ∈ cs, GoodCall inherited c) ∧
      ((rounds k).listOk = false ∨
       (rounds k).createOk = false ∧ Refused supported inherited rounds 4 ∨
       (rounds k).createOk = true ∧ (rounds k).pid = 0#32)

theorem winFinish_ok (supported : Bool) (inherited : List (BitVec 64)) (rounds : Nat → WinRound) (k : Nat)
    (f f0 : WinFlags) (s s0 : WinStart) (hs : s.calls = s0.calls) (profile : Option Nat) (attrs : List ProcAttr)
    (hattrs : attrs = (profile.toList.map ProcAttr.securityCapabilities) ++
      if f.lessPrivileged then [ProcAttr.allApplicationPackagesPolicy 1] else [])
    (hp : profile.isSome = f.appContainer) (hl : f.lessPrivileged = true → f.appContainer = true)
    (hw : f.weight ≤ f0.weight)
    (slots : Nat) (hslots : slots = [f.appContainer, f.lessPrivileged, f.filterHandles, f.blockChildren, f.mitigations].countP id)
    (hj : Justified supported inherited rounds f) :
    AttemptOk supported inherited rounds k f0 s0 (winFinish inherited f slots attrs profile s (rounds k)) := by
  have hex := exact_handles inherited
  rw [winFinish]
  cases e1 : trySet f.filterHandles (rounds k) (.handleList (handlesToInherit inherited)) attrs with
  | none =>
    obtain ⟨h1, h2⟩ := trySet_none e1
    refine ⟨⟨hj.h0, hj.h1, fun _ => ⟨k, _, hex, h2⟩, hj.h3, hj.h4⟩, ?_, [], by simp [hs], by simp⟩
    simp only [WinFlags.weight, h1, Bool.toNat_true, Bool.toNat_false] at hw ⊢; omega
  | some as1 =>
    have e1 := trySet_some e1
    simp only
    cases e2 : trySet f.blockChildren (rounds k) (.childProcessPolicy 1) as1 with
    | none =>
      obtain ⟨h1, h2⟩ := trySet_none e2
      refine ⟨⟨hj.h0, hj.h1, hj.h2, fun _ => ⟨k, h2⟩, hj.h4⟩, ?_, [], by simp [hs], by simp⟩
      simp only [WinFlags.weight, h1, Bool.toNat_true, Bool.toNat_false] at hw ⊢; omega
    | some as2 =>
      have e2 := trySet_some e2
      simp only
      cases e3 : trySet f.mitigations (rounds k) (.mitigationPolicy mitigationValue) as2 with
      | none =>
        obtain ⟨h1, h2⟩ := trySet_none e3
        refine ⟨⟨hj.h0, hj.h1, hj.h2, hj.h3, fun _ => ⟨k, .inl h2⟩⟩, ?_, [], by simp [hs], by simp⟩
        simp only [WinFlags.weight, h1, Bool.toNat_true, Bool.toNat_false] at hw ⊢; omega
      | some as3 =>
        have e3 := trySet_some e3
        simp only
        have hall : as3 = (profile.toList.map ProcAttr.securityCapabilities) ++
            (if f.lessPrivileged then [ProcAttr.allApplicationPackagesPolicy 1] else []) ++
            (if f.filterHandles then [ProcAttr.handleList (handlesToInherit inherited)] else []) ++
            (if f.blockChildren then [ProcAttr.childProcessPolicy 1] else []) ++
            (if f.mitigations then [ProcAttr.mitigationPolicy mitigationValue] else []) := by
          rw [e3, e2, e1, hattrs]
        have hgood : GoodCall inherited ⟨slots, as3, (rounds k).createOk⟩ ∧
            (∀ kind < 5, kind ∈ as3.map attrKind ∨ Refused supported inherited rounds kind) ∧
            (∀ id, profile = some id ↔ .securityCapabilities id ∈ as3) := by
          rw [hall, hslots]
          obtain ⟨b0, b1, b2, b3, b4⟩ := f
          simp only at hp hl
          have hm : mitigationValue = 0x10111305#32 := by decide
          refine ⟨⟨?_, ?_, ?_⟩, ?_, ?_⟩
          · cases profile <;> cases b0 <;> cases b1 <;> cases b2 <;> cases b3 <;> cases b4 <;> simp at hp <;> rfl
          · cases profile <;> cases b1 <;> cases b2 <;> cases b3 <;> cases b4 <;>
              simp [attrKind]
          · intro a ha
            simp only [List.mem_append, List.mem_map] at ha
            rcases ha with (((⟨i, -, rfl⟩ | ha) | ha) | ha) | ha
            · trivial
            all_goals
              split at ha
              · simp only [List.mem_singleton] at ha
                subst ha
                first | exact hex | exact rfl | exact hm
              · cases ha
          · intro kind hk
            have h0 := hj.h0; have h1 := hj.h1; have h2 := hj.h2; have h3 := hj.h3; have h4 := hj.h4
            simp only at h0 h1 h2 h3 h4
            match kind with
            | 0 => cases b0 with
              | false => exact .inr (h0 rfl)
              | true =>
                cases profile with
                | none => simp at hp
                | some i => left; simp [attrKind]
            | 1 => cases b1 with
              | false => exact .inr (h1 rfl)
              | true => left; simp [attrKind]
            | 2 => cases b2 with
              | false => exact .inr (h2 rfl)
              | true => left; simp [attrKind]
            | 3 => cases b3 with
              | false => exact .inr (h3 rfl)
              | true => left; simp [attrKind]
            | 4 => cases b4 with
              | false => exact .inr (h4 rfl)
              | true => left; simp [attrKind]
            | n + 5 => omega
          · intro i
            cases profile <;> cases b1 <;> cases b2 <;> cases b3 <;> cases b4 <;> simp [eq_comm]
        obtain ⟨hg, hk, hpr⟩ := hgood
        by_cases hc : (rounds k).createOk = true
        · rw [if_pos hc]
          by_cases hpid : (rounds k).pid = 0
          · rw [if_pos hpid]
            exact ⟨⟨[_], by rw [hs], by simpa using hg⟩, .inr (.inr ⟨hc, hpid⟩)⟩
          · rw [if_neg hpid]
            exact ⟨_, by rw [hs], hg, hk, rfl, hpid, hc, hpr⟩
        · rw [if_neg hc]
          have hc : (rounds k).createOk = false := by simpa using hc
          by_cases hm : f.mitigations = true
          · rw [if_pos hm]
            refine ⟨⟨hj.h0, hj.h1, hj.h2, hj.h3, fun _ => ⟨k, .inr hc⟩⟩, ?_, [_], by rw [hs], by simpa using hg⟩
            simp only [WinFlags.weight, hm, Bool.toNat_true, Bool.toNat_false] at hw ⊢; omega
          · rw [if_neg hm]
            exact ⟨⟨[_], by rw [hs], by simpa using hg⟩, .inr (.inl ⟨hc, hj.h4 (by simpa using hm)⟩)⟩

theorem winAttempt_ok (supported : Bool) (inherited : List (BitVec 64)) (rounds : Nat → WinRound) (k : Nat)
    (f : WinFlags) (s : WinStart) (hj : Justified supported inherited rounds f) :
    AttemptOk supported inherited rounds k f s (winAttempt supported inherited f s (rounds k)) := by
  have hcalls : ∀ b s', createProfile s (rounds k) = (b, s') → s'.calls = s.calls ∧
      (b = false → NoProfile (rounds k)) := by
    intro b s' h
    simp only [createProfile] at h
    by_cases h1 : (rounds k).profile1 = HRESULT_ALREADY_EXISTS
    · have hne : (rounds k).profile1 ≠ 0#32 := by rw [h1]; decide
      rw [if_pos h1] at h
      by_cases h2 : (rounds k).profile2 = 0
      · rw [if_pos h2] at h; cases h; exact ⟨rfl, by simp⟩
      · rw [if_neg h2] at h; cases h; exact ⟨rfl, fun _ => ⟨hne, fun _ => h2⟩⟩
    · rw [if_neg h1] at h
      by_cases h2 : (rounds k).profile1 = 0
      · rw [if_pos h2] at h; cases h; exact ⟨rfl, by simp⟩
      · rw [if_neg h2] at h; cases h; exact ⟨rfl, fun _ => ⟨h2, fun hh => absurd hh h1⟩⟩
  obtain ⟨b0, b1, b2, b3, b4⟩ := f
  rw [winAttempt]
  by_cases hlist : (rounds k).listOk = true
  · simp only [hlist, if_true]
    cases b0 with
    | false =>
      simp only [Bool.false_eq_true, if_false]
      refine winFinish_ok supported inherited rounds k ⟨false, false, b2, b3, b4⟩ _ s s rfl none [] rfl rfl (by simp) (by simp [WinFlags.weight])
        _ rfl ⟨hj.h0, fun _ => .inr (hj.h0 rfl), hj.h2, hj.h3, hj.h4⟩
    | true =>
      simp only [if_true]
      cases supported with
      | false =>
        simp only [Bool.false_eq_true, if_false]
        refine ⟨⟨fun _ => .inl rfl, hj.h1, hj.h2, hj.h3, hj.h4⟩, ?_, [], by simp, by simp⟩
        simp only [WinFlags.weight, Bool.toNat_true, Bool.toNat_false, Bool.false_and]; omega
      | true =>
        simp only [if_true]
        generalize hcp : createProfile s (rounds k) = cp
        obtain ⟨b, s'⟩ := cp
        obtain ⟨hc, hn⟩ := hcalls b s' hcp
        cases b with
        | false =>
          refine ⟨⟨fun _ => .inr ⟨k, .inl (hn rfl)⟩, hj.h1, hj.h2, hj.h3, hj.h4⟩, ?_, [], by simp [hc], by simp⟩
          simp only [WinFlags.weight, Bool.toNat_true, Bool.toNat_false, Bool.false_and]; omega
        | true =>
          simp only
          cases e1 : trySet true (rounds k) (.securityCapabilities s.nextId) [] with
          | none =>
            refine ⟨⟨fun _ => .inr ⟨k, .inr ⟨_, (trySet_none e1).2⟩⟩, hj.h1, hj.h2, hj.h3, hj.h4⟩, ?_, [], by simp [hc], by simp⟩
            simp only [WinFlags.weight, Bool.toNat_true, Bool.toNat_false, Bool.false_and]; omega
          | some as1 =>
            have e1 := trySet_some e1
            simp only
            cases e2 : trySet b1 (rounds k) (.allApplicationPackagesPolicy 1) as1 with
            | none =>
              obtain ⟨h1, h2⟩ := trySet_none e2
              refine ⟨⟨hj.h0, fun _ => .inl ⟨k, h2⟩, hj.h2, hj.h3, hj.h4⟩, ?_, [], by simp [hc], by simp⟩
              simp only [WinFlags.weight, h1, Bool.toNat_true, Bool.toNat_false, Bool.and_true, Bool.and_false]; omega
            | some as2 =>
              have e2 := trySet_some e2
              refine winFinish_ok true inherited rounds k ⟨true, b1, b2, b3, b4⟩ _ s' s hc (some s.nextId) as2 ?_ rfl
                (fun _ => rfl) (Nat.le_refl _) _ rfl hj
              rw [e2, e1]
              rfl
  · have hlist : (rounds k).listOk = false := by simpa using hlist
    simp only [hlist, Bool.false_eq_true, if_false]
    exact ⟨⟨[], by simp, by simp⟩, .inl hlist⟩

/-- The whole loop. -/
theorem winLoop_ok (supported : Bool) (inherited : List (BitVec 64)) (rounds : Nat → WinRound) (n k : Nat)
    (f : WinFlags) (s : WinStart) (hj : Justified supported inherited rounds f) (hw : f.weight < n) :
    match winLoop supported inherited rounds n k f s with
    | .again _ _ => False
    | .created p s' => ∃ cs c, s'.calls = s.calls ++ cs ++ [c] ∧ (∀ c ∈ cs, GoodCall inherited c) ∧
        ∃ k f s, AttemptOk supported inherited rounds k f s (.created p s') ∧ s'.calls = s.calls ++ [c]
    | .failed s' => (∃ cs, s'.calls = s.calls ++ cs ∧ ∀ c ∈ cs, GoodCall inherited c) ∧
        ∃ k f s, AttemptOk supported inherited rounds k f s (.failed s') := by
  induction n generalizing k f s with
  | zero => omega
  | succ n ih =>
    rw [winLoop]
    have h := winAttempt_ok supported inherited rounds k f s hj
    generalize winAttempt supported inherited f s (rounds k) = a at h
    cases a with
    | again f' s' =>
      obtain ⟨h1, h2, cs, h3, h4⟩ := h
      have ih := ih (k + 1) f' s' h1 (by omega)
      simp only
      generalize winLoop supported inherited rounds n (k + 1) f' s' = a at ih
      cases a with
      | again _ _ => exact ih
      | created p s'' =>
        obtain ⟨cs', c, i1, i2, i3⟩ := ih
        refine ⟨cs ++ cs', c, by rw [i1, h3]; simp, fun c hc => ?_, i3⟩
        rcases List.mem_append.1 hc with hc | hc
        · exact h4 c hc
        · exact i2 c hc
      | failed s'' =>
        obtain ⟨⟨cs', i1, i2⟩, i3⟩ := ih
        refine ⟨⟨cs ++ cs', by rw [i1, h3]; simp, fun c hc => ?_⟩, i3⟩
        rcases List.mem_append.1 hc with hc | hc
        · exact h4 c hc
        · exact i2 c hc
    | created p s' =>
      obtain ⟨c, h1, h2⟩ := id h
      exact ⟨[], c, by simpa using h1, by simp, k, f, s, h, h1⟩
    | failed s' => exact ⟨h.1, k, f, s, h⟩

end Iris
