import Verif.Spec.LinuxPolicy
import Verif.Lemmas.Str
/-! Lemmas relating path strings to component lists. -/
namespace Iris
open Spec

/-- A component as far as the separator is concerned (any operating system). -/
def PlainComp (sep : Char) (c : Str) : Prop := c ≠ [] ∧ sep ∉ c

/-- `render` for any separator. -/
def renderSep (sep : Char) : List Str → Str
  | [] => []
  | c :: cs => sep :: c ++ renderSep sep cs

theorem render_eq (cs : List Str) : render cs = renderSep '/' cs := by
  induction cs with
  | nil => rfl
  | cons c cs ih => simp [render, renderSep, ih]

theorem renderSep_append (sep : Char) (a b : List Str) :
    renderSep sep (a ++ b) = renderSep sep a ++ renderSep sep b := by
  induction a with
  | nil => rfl
  | cons c cs ih => simp [renderSep, ih]

theorem renderSep_ne_nil {sep : Char} {cs : List Str} (h : cs ≠ []) : renderSep sep cs ≠ [] := by
  cases cs with
  | nil => exact absurd rfl h
  | cons c cs => simp [renderSep]

theorem renderSep_joinSep (sep : Char) {cs : List Str} (h : cs ≠ []) :
    renderSep sep cs = sep :: joinSep sep cs := by
  induction cs with
  | nil => exact absurd rfl h
  | cons c t ih =>
    cases t with
    | nil => simp [renderSep, joinSep]
    | cons d r =>
      have := ih (by simp)
      rw [renderSep, this]; simp [joinSep]

theorem renderSep_getLast {sep : Char} {cs : List Str} (h : ∀ c ∈ cs, PlainComp sep c) :
    (renderSep sep cs).getLast? ≠ some sep := by
  rcases List.eq_nil_or_concat cs with rfl | ⟨ds, d, rfl⟩
  · simp [renderSep]
  · have hd := h d (by simp)
    rw [List.concat_eq_append, renderSep_append]
    intro hl
    simp only [renderSep, List.append_nil] at hl
    rw [List.getLast?_append, List.getLast?_cons] at hl
    simp only [Option.some_or] at hl
    obtain ⟨ys, hys⟩ : ∃ ys, d = ys ++ [sep] := by
      cases hdl : d.getLast? with
      | none => rw [List.getLast?_eq_none_iff] at hdl; exact absurd hdl hd.1
      | some x =>
        rw [hdl] at hl; simp at hl; subst hl
        exact List.getLast?_eq_some_iff.1 hdl
    exact hd.2 (by rw [hys]; simp)

theorem stripTrailing_render {sep : Char} {cs : List Str} (h : ∀ c ∈ cs, PlainComp sep c) :
    (stripSuffix sep (renderSep sep cs)).getD (renderSep sep cs) = renderSep sep cs := by
  rw [stripSuffix_none (renderSep_getLast h)]; rfl

theorem stripTrailing_render_sep {sep : Char} {cs : List Str} (s : Str) :
    (stripSuffix sep (renderSep sep cs ++ [sep])).getD s = renderSep sep cs := by
  rw [stripSuffix_append]; rfl

/-- `strip_one_component` removes exactly the last component, except that it
stops above the first one. -/
theorem stripOneComponent_render {sep : Char} {cs : List Str} {c : Str}
    (h : ∀ d ∈ cs, PlainComp sep d) (hc : PlainComp sep c) :
    stripOneComponent (renderSep sep (cs ++ [c])) sep =
      if cs = [] then none else some (renderSep sep cs) := by
  have hall : ∀ d ∈ cs ++ [c], PlainComp sep d := by
    intro d hd
    rcases List.mem_append.1 hd with hd | hd
    · exact h d hd
    · simp at hd; subst hd; exact hc
  simp only [stripOneComponent, stripSuffix_none (renderSep_getLast hall)]
  rw [renderSep_append]
  simp only [renderSep, List.append_nil]
  rw [rsplitOnce_append _ hc.2]
  cases cs with
  | nil => simp [renderSep]
  | cons d ds => simp [renderSep]

theorem renderSep_injective {sep : Char} {as bs : List Str}
    (ha : ∀ c ∈ as, PlainComp sep c) (hb : ∀ c ∈ bs, PlainComp sep c)
    (h : renderSep sep as = renderSep sep bs) : as = bs := by
  cases as with
  | nil =>
    cases bs with
    | nil => rfl
    | cons b bs => simp [renderSep] at h
  | cons a as' =>
    cases bs with
    | nil => simp [renderSep] at h
    | cons b bs' =>
      rw [renderSep_joinSep sep (by simp), renderSep_joinSep sep (by simp)] at h
      have h' := (List.cons.inj h).2
      have := congrArg (split sep) h'
      rwa [split_joinSep (by simp) (fun p hp => (ha p hp).2),
        split_joinSep (by simp) (fun p hp => (hb p hp).2)] at this

theorem Spec.GoodComponent.plain {c : Str} (h : GoodComponent c) : PlainComp '/' c := ⟨h.1, h.2.1⟩

theorem Spec.Denotes.plain {s : Str} {cs : List Str} (h : Denotes s cs) :
    ∀ c ∈ cs, PlainComp '/' c := fun c hc => (h.2.1 c hc).plain

theorem Spec.Denotes.strip {s : Str} {cs : List Str} (h : Denotes s cs) :
    (stripSuffix '/' s).getD s = renderSep '/' cs := by
  have hp := h.plain
  rcases h.2.2 with e | e
  · rw [e, render_eq, stripTrailing_render hp]
  · rw [e, render_eq, stripTrailing_render_sep]

theorem strip_eq_render_iff {s : Str} {cs : List Str} (hne : cs ≠ [])
    (hg : ∀ c ∈ cs, GoodComponent c) :
    (stripSuffix '/' s).getD s = renderSep '/' cs ↔ Denotes s cs := by
  constructor
  · intro h
    refine ⟨hne, hg, ?_⟩
    rw [render_eq]
    cases hs : stripSuffix '/' s with
    | none => rw [hs] at h; exact Or.inl h
    | some t =>
      rw [hs] at h
      have := stripSuffix_some hs
      simp at h
      rw [this, h]; exact Or.inr rfl
  · exact Spec.Denotes.strip

theorem Spec.Denotes.unique {s : Str} {cs ds : List Str} (h : Denotes s cs) (h' : Denotes s ds) :
    cs = ds :=
  renderSep_injective h.plain h'.plain (h.strip.symm.trans h'.strip)

theorem Spec.Denotes.startsWith {s : Str} {cs : List Str} (h : Denotes s cs) :
    startsWith '/' s = true := by
  obtain ⟨hne, _, e⟩ := h
  cases cs with
  | nil => exact absurd rfl hne
  | cons c cs => rcases e with e | e <;> subst e <;> simp [Iris.startsWith, stripPrefix, render]

/-- `path_is_sane` decides `Canonical`. -/
theorem pathIsSane_iff (s : Str) : pathIsSane s = true ↔ Canonical s := by
  constructor
  · intro h
    simp only [pathIsSane] at h
    split at h
    · cases h
    · rename_i rest hrest
      have hs := stripPrefix_some hrest
      let body := (stripSuffix '/' rest).getD rest
      refine ⟨split '/' body, split_ne_nil _ _, ?_, ?_⟩
      · intro c hc
        rw [List.all_eq_true] at h
        have := h c hc
        simp at this
        exact ⟨this.1, not_mem_of_mem_split hc, this.2.1, this.2.2⟩
      · rw [render_eq, renderSep_joinSep _ (split_ne_nil _ _), joinSep_split, hs]
        cases hb : stripSuffix '/' rest with
        | none => left; simp [body, hb]
        | some t => right; simp only [body, hb, Option.getD_some]; rw [stripSuffix_some hb]; rfl
  · rintro ⟨cs, hd⟩
    have hp := hd.plain
    obtain ⟨hne, hg, e⟩ := hd
    have key : ∀ rest, (stripSuffix '/' rest).getD rest = joinSep '/' cs →
        pathIsSane ('/' :: rest) = true := by
      intro rest hr
      simp only [pathIsSane, stripPrefix_cons]
      rw [hr, split_joinSep hne (fun p hp' => (hp p hp').2), List.all_eq_true]
      intro c hc
      have := hg c hc
      simp [this.1, this.2.2.1, this.2.2.2]
    have hlast : (joinSep '/' cs).getLast? ≠ some '/' := by
      have h1 := renderSep_getLast hp
      rw [renderSep_joinSep _ hne, List.getLast?_cons] at h1
      intro h2; rw [h2] at h1; simp at h1
    rcases e with e | e
    · rw [e, render_eq, renderSep_joinSep _ hne]
      apply key
      rw [stripSuffix_none hlast]; rfl
    · rw [e, render_eq, renderSep_joinSep _ hne]
      apply key
      exact congrArg (Option.getD · _) (stripSuffix_append '/' (joinSep '/' cs))

end Iris
