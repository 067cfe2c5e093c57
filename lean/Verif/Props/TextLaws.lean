import Verif.SpecLaws
import Verif.Props.Exact
import Verif.Props.Silent
/-
Laws about lists of rules in terms of their text: exceptions override rules, further rules do not unblock, repeated
rules, the order of rules, tags and options about what to do with a blocked request do not matter.  All of them follow
from the exact verdict of C59.
-/
namespace AdBlock
open Spec

/-- A rule that counts applies to the request. -/
abbrev CountedApplies (E : Env) (rs : List RuleText) (tags : List Bytes) (q : Request) (s : Bool) : Prop :=
  ∃ r ∈ rs, r.exception = s ∧ Counted E.bad rs q r ∧ r.AppliesTo tags q

theorem answers_iff {E : Env} {input : Bytes} {rs : List RuleText} (h : Lists E input rs) (preserve : Bool) (tags : List Bytes)
    {q : Request} (hq : Askable E rs q) : ∃ b, Answers E input preserve tags q b ∧
      (b = true ↔ (∃ r ∈ rs, r.exception = false ∧ Counted E.bad rs q r ∧ r.AppliesTo tags q) ∧
        ¬ ∃ r ∈ rs, r.exception = true ∧ Counted E.bad rs q r ∧ r.AppliesTo tags q) := by
  obtain ⟨c, h1, h2⟩ := C59_text_exact E rs h.sound input h.noNul h.rules preserve
  obtain ⟨o, h3, h4⟩ := h2 tags q hq.web hq.safe hq.empty hq.rolls
  exact ⟨o.block, ⟨c, h1, o, h3, rfl⟩, h4⟩

/-- There is but one answer. -/
theorem answers_unique {E : Env} {input : Bytes} {preserve : Bool} {tags : List Bytes} {q : Request} {b b' : Bool}
    (h : Answers E input preserve tags q b) (h' : Answers E input preserve tags q b') : b = b' := by
  obtain ⟨c, h1, o, h2, rfl⟩ := h
  obtain ⟨c', h1', o', h2', rfl⟩ := h'
  rw [h1] at h1'
  cases h1'
  rw [h2] at h2'
  cases h2'
  rfl

/-- Two lists give the same answer if the same kinds of rules count and apply. -/
theorem answers_same {E : Env} {A B : Bytes} {rs rs' : List RuleText} (hA : Lists E A rs) (hB : Lists E B rs') (preserve preserve' : Bool)
    {tags tags' : List Bytes} {q : Request} (hq : Askable E rs q) (hq' : Askable E rs' q)
    (h : ∀ s, CountedApplies E rs tags q s ↔ CountedApplies E rs' tags' q s) :
    ∃ b, Answers E A preserve tags q b ∧ Answers E B preserve' tags' q b := by
  obtain ⟨b, h1, h2⟩ := answers_iff hA preserve tags hq
  obtain ⟨b', h3, h4⟩ := answers_iff hB preserve' tags' hq'
  refine ⟨b, h1, ?_⟩
  have : b = b' := by
    rw [Bool.eq_iff_iff, h2, h4]
    exact and_congr (h false) (not_congr (h true))
  exact this ▸ h3

/-! ### rules about the contents of pages -/

theorem rule_not_aboutPages {r : RuleText} (hw : r.WellFormed) : ¬ AboutPages r.line := by
  rintro ⟨before, mark, selector, hb, hm, hl⟩
  obtain ⟨f, e, h1, h2, -⟩ := parse_pageLine (rule_line_clean hw) hb hm hl [] false false
  obtain ⟨fp, -, h3⟩ := C22_rule_text [] hw (.inl rfl) false false
  rw [h1] at h3
  cases h3
  obtain ⟨-, k2, -, -, -, -, k5, k6⟩ := kind_bits r
  rcases h2 with h | h | h
  · exact k5 h
  · exact k6 h
  · have hk : r.kind = FTHTMLFiltering := h
    revert hk
    unfold RuleText.kind
    by_cases hh : r.HostOnly <;> cases r.exception <;> cases r.anchor <;> cases r.rightBar <;>
      simp only [hh, ↓reduceIte, Bool.false_eq_true, Anchor.mask] <;> decide

/-- **C44** in terms of the text: taking any lines with rules about the contents of pages out of a list changes no verdict. -/
theorem C44_text {E : Env} {A B : Bytes} {rs : List RuleText} (hA : Lists E A rs) (hB : 0 ∉ B) {keep : Bytes → Bool}
    (hlines : lines B = (lines A).filter keep) (hp : ∀ l ∈ lines A, keep l = false → AboutPages l) (preserve preserve' : Bool)
    (tags : List Bytes) {q : Request} (hq : Askable E rs q) : ∃ b, Answers E A preserve tags q b ∧ Answers E B preserve' tags q b := by
  refine answers_same hA ⟨hB, ?_, hA.sound⟩ preserve preserve' hq hq fun _ => Iff.rfl
  rw [hlines]
  have key : ∀ {ls : List Bytes} {rs : List RuleText}, ListOf ls rs → (∀ r ∈ rs, r.WellFormed) → (∀ l ∈ ls, keep l = false → AboutPages l) →
      ListOf (ls.filter keep) rs := by
    intro ls rs h
    have skip : ∀ {l : Bytes} {ls : List Bytes} {rs : List RuleText}, ListOf (ls.filter keep) rs →
        (ListOf (ls.filter keep) rs → ListOf (l :: ls.filter keep) rs) → ListOf ((l :: ls).filter keep) rs := by
      intro l ls rs h hc
      rw [List.filter_cons]
      split
      · exact hc h
      · exact h
    induction h with
    | nil => exact fun _ _ => .nil
    | idle h _ ih => exact fun hw hp => skip (ih hw fun l hl => hp l (List.mem_cons_of_mem _ hl)) (.idle h)
    | page h _ ih => exact fun hw hp => skip (ih hw fun l hl => hp l (List.mem_cons_of_mem _ hl)) (.page h)
    | regex h _ ih => exact fun hw hp => skip (ih hw fun l hl => hp l (List.mem_cons_of_mem _ hl)) (.regex h)
    | other h h' _ ih => exact fun hw hp => skip (ih hw fun l hl => hp l (List.mem_cons_of_mem _ hl)) (.other h h')
    | rule r _ ih =>
      intro hw hp
      have hk : keep r.line = true := by
        cases hk : keep r.line with
        | true => rfl
        | false => exact absurd (hp _ (by simp) hk) (rule_not_aboutPages (hw r (by simp)))
      rw [List.filter_cons, if_pos hk]
      exact .rule r (ih (fun r hr => hw r (List.mem_cons_of_mem _ hr)) fun l hl => hp l (List.mem_cons_of_mem _ hl))
  exact key hA.rules hA.sound.wellFormed hp

/-! ### exceptions -/

/-- **C25** in terms of the text: a request to which an exception applies that counts is not blocked, whatever other
rules the list has. -/
theorem C25_text {E : Env} {input : Bytes} {rs : List RuleText} (h : Lists E input rs) (preserve : Bool) (tags : List Bytes)
    {q : Request} (hq : Askable E rs q) {r : RuleText} (hr : r ∈ rs) (he : r.exception = true) (hc : Counted E.bad rs q r)
    (ha : r.AppliesTo tags q) : Answers E input preserve tags q false := by
  obtain ⟨b, h1, h2⟩ := answers_iff h preserve tags hq
  cases b with
  | false => exact h1
  | true => exact absurd ⟨r, hr, he, hc, ha⟩ (h2.1 rfl).2

/-! ### further rules -/

theorem hostCounted_append {rs : List RuleText} {q : Request} {r : RuleText} (new : List RuleText) (h : HostCounted rs q r) :
    HostCounted (rs ++ new) q r := by
  intro hh
  obtain ⟨⟨before, after, h1, h2⟩, h3⟩ := h hh
  exact ⟨⟨before, after ++ new, by rw [h1]; simp, h2⟩, h3⟩

theorem counted_append {bad : List Bytes} {rs new : List RuleText} {q : Request} {r : RuleText} (h : Counted bad rs q r)
    (hn : ∀ r' ∈ new, r'.exception = r.exception → (∀ o ∈ r'.entries, ¬ RuleText.Unsupported o) → ∀ dl', ByDomain bad r' dl' →
      positive dl' = [] → ∀ d, q.domain = some d → ∀ s ∈ negative dl', ¬ (SameSite s d ∧ (s = d ∨ ch%'.' ∈ s))) :
    Counted bad (rs ++ new) q r where
  host := hostCounted_append new h.host
  page := h.page
  excluded dl h1 h2 r' hr' := by
    rcases List.mem_append.1 hr' with hr' | hr'
    · exact h.excluded dl h1 h2 r' hr'
    · exact hn r' hr'

/-- In a longer list a rule counts only if it does in the shorter one, provided it occurs there. -/
theorem counted_of_append {bad : List Bytes} {rs new : List RuleText} {q : Request} {r : RuleText} (h : Counted bad (rs ++ new) q r)
    (hr : r ∈ rs) : Counted bad rs q r where
  host hh := by
    obtain ⟨⟨before, after, h1, h2⟩, h3⟩ := h.host hh
    refine ⟨?_, h3⟩
    rcases List.append_eq_append_iff.1 h1 with ⟨x, h4, h5⟩ | ⟨x, h4, h5⟩
    · exact absurd ⟨hh, rfl, rfl⟩ (h2 r (by rw [h4]; simp [hr]))
    · cases x with
      | nil => exact absurd ⟨hh, rfl, rfl⟩ (h2 r (by rw [List.append_nil] at h4; rw [← h4]; exact hr))
      | cons y x =>
        simp only [List.cons_append, List.cons.injEq] at h5
        exact ⟨before, x, by rw [h4, h5.1], h2⟩
  page := h.page
  excluded dl h1 h2 r' hr' := h.excluded dl h1 h2 r' (List.mem_append_left _ hr')

/-- **C26** in terms of the text: a request that is blocked by a list stays blocked by the list with further rules that
are not exceptions, unless one of these only excludes domains, cannot be indexed and excludes the page. -/
theorem C26_text_partial {E : Env} {A B : Bytes} {rs new : List RuleText} (hA : Lists E A rs) (hB : Lists E B (rs ++ new))
    {preserve preserve' : Bool} {tags : List Bytes} {q : Request} (hq : Askable E (rs ++ new) q) (hnew : ∀ r ∈ new, r.exception = false)
    (hneg : ∀ r ∈ new, (∀ o ∈ r.entries, ¬ RuleText.Unsupported o) → ∀ dl, ByDomain E.bad r dl → positive dl = [] →
      ∀ d, q.domain = some d → ∀ s ∈ negative dl, ¬ SameSite s d)
    (h : Answers E A preserve tags q true) : Answers E B preserve' tags q true := by
  have hq0 : Askable E rs q :=
    ⟨hq.web, ⟨fun r hr => hq.safe.inBounds r (List.mem_append_left _ hr)⟩,
      fun hd r hr => hq.empty hd r (List.mem_append_left _ hr), hq.rolls⟩
  obtain ⟨b, h1, h2⟩ := answers_iff hA preserve tags hq0
  obtain ⟨b', h3, h4⟩ := answers_iff hB preserve' tags hq
  obtain ⟨⟨r, hr, he, hc, ha⟩, h5⟩ := h2.1 (answers_unique h1 h)
  have : b' = true := by
    rw [h4]
    refine ⟨⟨r, List.mem_append_left _ hr, he, counted_append hc ?_, ha⟩, ?_⟩
    · intro r' hr' _ h6 dl' h7 h8 d h9 s h10 h11
      exact hneg r' hr' h6 dl' h7 h8 d h9 s h10 h11.1
    · rintro ⟨r', hr', he', hc', ha'⟩
      rcases List.mem_append.1 hr' with hr' | hr'
      · exact h5 ⟨r', hr', he', counted_of_append hc' hr', ha'⟩
      · rw [hnew r' hr'] at he'
        cases he'
  exact this ▸ h3

/-! ### repeated rules -/

/-- **C51** in terms of the text: a list and the same list with some of its rules repeated give the same answers. -/
theorem C51_text {E : Env} {A B : Bytes} {rs again : List RuleText} (hA : Lists E A rs) (hB : Lists E B (rs ++ again))
    (preserve preserve' : Bool) (tags : List Bytes) {q : Request} (hq : Askable E rs q) (hag : ∀ r ∈ again, r ∈ rs) :
    ∃ b, Answers E A preserve tags q b ∧ Answers E B preserve' tags q b := by
  have hin : ∀ r ∈ rs ++ again, r ∈ rs := fun r hr => (List.mem_append.1 hr).elim (fun h => h) (hag r)
  have hq' : Askable E (rs ++ again) q :=
    ⟨hq.web, ⟨fun r hr => hq.safe.inBounds r (hin r hr)⟩, fun hd r hr => hq.empty hd r (hin r hr), hq.rolls⟩
  refine answers_same hA hB preserve preserve' hq hq' fun s => ⟨?_, ?_⟩
  · rintro ⟨r, hr, he, hc, ha⟩
    refine ⟨r, List.mem_append_left _ hr, he, ⟨hostCounted_append _ hc.host, hc.page, ?_⟩, ha⟩
    exact fun dl h1 h2 r' hr' => hc.excluded dl h1 h2 r' (hin r' hr')
  · rintro ⟨r, hr, he, hc, ha⟩
    exact ⟨r, hin r hr, he, counted_of_append hc (hin r hr), ha⟩

/-! ### order -/

/-- There is a first rule of each kind for a host. -/
theorem first_hostRule {rs : List RuleText} {r : RuleText} (hr : r ∈ rs) (hh : r.HostOnly) :
    ∃ r' before after, rs = before ++ r' :: after ∧ r'.HostOnly ∧ r'.exception = r.exception ∧ r'.hostPart = r.hostPart ∧
      ∀ x ∈ before, ¬ (x.HostOnly ∧ x.exception = r.exception ∧ x.hostPart = r.hostPart) := by
  induction rs with
  | nil => simp at hr
  | cons x rs ih =>
    by_cases hx : x.HostOnly ∧ x.exception = r.exception ∧ x.hostPart = r.hostPart
    · exact ⟨x, [], rs, rfl, hx.1, hx.2.1, hx.2.2, by simp⟩
    · rcases List.mem_cons.1 hr with rfl | hr
      · exact absurd ⟨hh, rfl, rfl⟩ hx
      · obtain ⟨r', before, after, h1, h2, h3, h4, h5⟩ := ih hr
        refine ⟨r', x :: before, after, by rw [h1]; rfl, h2, h3, h4, fun y hy => ?_⟩
        rcases List.mem_cons.1 hy with rfl | hy
        · exact hx
        · exact h5 y hy

/-- A rule that consists of a host and applies is for a host of the request. -/
theorem applies_host {rs : List RuleText} {q : Request} {tags : List Bytes} (hq : Spec.Comparable rs q) {r : RuleText} (hr : r ∈ rs)
    (hh : r.HostOnly) (ha : r.AppliesTo tags q) : SameSite r.hostPart q.host := by
  obtain ⟨h1, h2, h3, -, h5⟩ := ha
  unfold RuleText.AddressFits at h5
  rw [hh.1] at h5
  cases hb : r.rightBar with
  | true =>
    rw [hb] at h5
    exact absurd ⟨h1, h2, h3, .inr ⟨hh, hb, h5⟩⟩ (hq.inBounds r hr)
  | false =>
    rw [hb] at h5
    exact h5.1

/-- **C52** in terms of the text: two lists of the same rules, in any order and any number of times, give the same answer
to a request, unless different rules of a kind are for the same of its hosts. -/
theorem C52_text_partial {E : Env} {A B : Bytes} {rs rs' : List RuleText} (hA : Lists E A rs) (hB : Lists E B rs')
    (hm : ∀ r, r ∈ rs ↔ r ∈ rs') (preserve preserve' : Bool) (tags : List Bytes) {q : Request} (hq : Askable E rs q)
    (h1 : OneRuleForHost rs q) : ∃ b, Answers E A preserve tags q b ∧ Answers E B preserve' tags q b := by
  have hq' : Askable E rs' q :=
    ⟨hq.web, ⟨fun r hr => hq.safe.inBounds r ((hm r).2 hr)⟩, fun hd r hr => hq.empty hd r ((hm r).2 hr), hq.rolls⟩
  have h1' : OneRuleForHost rs' q := fun r hr r' hr' => h1 r ((hm r).2 hr) r' ((hm r').2 hr')
  have key : ∀ {xs ys : List RuleText}, (∀ r, r ∈ xs ↔ r ∈ ys) → Askable E ys q → OneRuleForHost ys q →
      ∀ s, CountedApplies E xs tags q s → CountedApplies E ys tags q s := by
    rintro xs ys hm hy ho s ⟨r, hr, he, hc, ha⟩
    have hry : r ∈ ys := (hm r).1 hr
    refine ⟨r, hry, he, ⟨fun hh => ⟨?_, (hc.host hh).2⟩, hc.page, ?_⟩, ha⟩
    · obtain ⟨r', before, after, h2, h3, h4, h5, h6⟩ := first_hostRule hry hh
      have hr' : r' ∈ ys := by rw [h2]; simp
      have : r = r' := ho r hry r' hr' hh h3 h4.symm h5.symm (applies_host hy.safe hry hh ha)
      exact ⟨before, after, this ▸ h2, h6⟩
    · exact fun dl h2 h3 r' hr' => hc.excluded dl h2 h3 r' ((hm r').2 hr')
  exact answers_same hA hB preserve preserve' hq hq' fun s => ⟨key hm hq' h1' s, key (fun r => (hm r).symm) hq h1 s⟩

/-! ### tags -/

/-- **C31** in terms of the text: only which tags are enabled matters. -/
theorem C31_text {E : Env} {input : Bytes} {rs : List RuleText} (h : Lists E input rs) (preserve : Bool) {tags tags' : List Bytes}
    (ht : ∀ t, t ∈ tags ↔ t ∈ tags') {q : Request} (hq : Askable E rs q) :
    ∃ b, Answers E input preserve tags q b ∧ Answers E input preserve tags' q b := by
  refine answers_same h h preserve preserve hq hq fun s => ?_
  have : ∀ r : RuleText, r.AppliesTo tags q ↔ r.AppliesTo tags' q := by
    intro r
    simp only [RuleText.AppliesTo, RuleText.TagEnabled, ht]
  simp only [CountedApplies, this]

/-! ### options about what to do with a blocked request -/

theorem fullName_of_prefix {k o : Bytes} (hk : k ∈ [bs%"domain=", bs%"tag=", bs%"csp=", bs%"redirect=", bs%"~"]) (h : k <+: o) :
    fullName o = none := by
  unfold fullName
  rw [Option.map_eq_none_iff, List.find?_eq_none]
  intro e he hp
  have h1 : k <+: e.1 := h.trans (List.isPrefixOf_iff_prefix.1 hp)
  exact (by decide +kernel : ∀ k ∈ [bs%"domain=", bs%"tag=", bs%"csp=", bs%"redirect=", bs%"~"], ∀ e ∈ optionTable, ¬ k <+: e.1) k hk e he h1

theorem unsigned_of_fullName {o n : Bytes} (h : fullName o = some n) : RuleText.unsigned o = o := by
  unfold RuleText.unsigned
  split
  · rename_i hh
    cases o with
    | nil => simp at hh
    | cons c o =>
      simp only [List.head?_cons, Option.some.injEq] at hh
      subst hh
      rw [fullName_of_prefix (k := bs%"~") (o := ch%'~' :: o) (by simp) ⟨o, rfl⟩] at h
      cases h
  · rfl

theorem not_aside_of_fullName {o n : Bytes} (h : fullName (RuleText.unsigned o) = some n)
    (hn : some n ∉ [some bs%"important", some bs%"explicitcancel", some bs%"first-party"]) : ¬ Aside o := by
  rintro (ha | ha)
  · rw [h] at ha
    exact hn ha
  · rw [fullName_of_prefix (by simp) ha] at h
    cases h

theorem not_aside_of_prefix {k o : Bytes} (hk : k ∈ [bs%"domain=", bs%"tag=", bs%"csp="]) (h : k <+: RuleText.unsigned o) : ¬ Aside o := by
  rintro (ha | ha)
  · rw [fullName_of_prefix (k := k) (by simp only [List.mem_cons, List.not_mem_nil, or_false] at hk ⊢; rcases hk with hk | hk | hk <;> simp [hk]) h] at ha
    simp at ha
  · have h1 := List.prefix_or_prefix_of_prefix h ha
    exact absurd h1 ((by decide +kernel : ∀ k ∈ [bs%"domain=", bs%"tag=", bs%"csp="], ¬ (k <+: bs%"redirect=" ∨ bs%"redirect=" <+: k)) k hk)

theorem not_aside_of_unsupported {o : Bytes} (h : RuleText.Unsupported o) : ¬ Aside o := by
  rcases h with ⟨n, hn, h⟩ | h | ⟨h1, h2, h3⟩
  · refine not_aside_of_fullName (n := n) (by rw [unsigned_of_fullName h]; exact h) ?_
    exact (by decide +kernel : ∀ n ∈ [bs%"popup", bs%"elemhide", bs%"generichide", bs%"genericblock", bs%"empty"],
      some n ∉ [some bs%"important", some bs%"explicitcancel", some bs%"first-party"]) n hn
  · have hu : RuleText.unsigned o = o := by
      obtain ⟨t, rfl⟩ := h
      rfl
    exact not_aside_of_prefix (k := bs%"csp=") (by simp) (by rw [hu]; exact h)
  · have hu : RuleText.unsigned o = o := by
      unfold RuleText.unsigned
      rw [if_neg h1]
    rintro (ha | ha)
    · rw [hu, h3] at ha
      simp at ha
    · rw [hu] at ha
      exact h2 _ (by simp) ha

/-- The rules differ only in options of the kinds mentioned and in tags. -/
structure SameButAside (r r' : RuleText) : Prop where
  rest : { r' with options := r.options } = r
  options : r'.entries.filter (fun o => decide (¬ (Aside o ∨ bs%"tag=" <+: RuleText.unsigned o))) =
    r.entries.filter (fun o => decide (¬ (Aside o ∨ bs%"tag=" <+: RuleText.unsigned o)))

theorem filter_more {A B : Bytes → Prop} [DecidablePred A] [DecidablePred B] {l l' : List Bytes} (hAB : ∀ o, A o → B o)
    (h : l'.filter (fun o => decide (¬ A o)) = l.filter (fun o => decide (¬ A o))) :
    l'.filter (fun o => decide (¬ B o)) = l.filter (fun o => decide (¬ B o)) := by
  have key : ∀ l : List Bytes, l.filter (fun o => decide (¬ B o)) = (l.filter (fun o => decide (¬ A o))).filter (fun o => decide (¬ B o)) := by
    intro l
    rw [List.filter_filter]
    apply List.filter_congr
    intro o _
    by_cases hb : B o
    · simp [hb]
    · have ha : ¬ A o := fun ha => hb (hAB o ha)
      simp [hb, ha]
  rw [key l', h, ← key]

theorem sameButAside_apart {r r' : RuleText} (h : SameApart r r') : SameButAside r r' := ⟨h.rest, filter_more (fun _ => .inl) h.options⟩

theorem sameButAside_tag {r r' : RuleText} (h : SameApartFromTag r r') : SameButAside r r' := ⟨h.rest, filter_more (fun _ => .inr) h.options⟩

theorem not_tag_of_fullName {o n : Bytes} (h : fullName (RuleText.unsigned o) = some n) : ¬ bs%"tag=" <+: RuleText.unsigned o := by
  intro hp
  rw [fullName_of_prefix (by simp) hp] at h
  cases h

theorem not_tag_of_prefix {k o : Bytes} (hk : k ∈ [bs%"domain=", bs%"csp="]) (h : k <+: RuleText.unsigned o) :
    ¬ bs%"tag=" <+: RuleText.unsigned o := fun ha =>
  absurd (List.prefix_or_prefix_of_prefix h ha)
    ((by decide +kernel : ∀ k ∈ [bs%"domain=", bs%"csp="], ¬ (k <+: bs%"tag=" ∨ bs%"tag=" <+: k)) k hk)

theorem not_tag_of_unsupported {o : Bytes} (h : RuleText.Unsupported o) : ¬ bs%"tag=" <+: RuleText.unsigned o := by
  rcases h with ⟨n, hn, h⟩ | h | ⟨h1, h2, h3⟩
  · exact not_tag_of_fullName (by rw [unsigned_of_fullName h]; exact h)
  · have hu : RuleText.unsigned o = o := by
      obtain ⟨t, rfl⟩ := h
      rfl
    exact not_tag_of_prefix (k := bs%"csp=") (by simp) (by rw [hu]; exact h)
  · have hu : RuleText.unsigned o = o := by
      unfold RuleText.unsigned
      rw [if_neg h1]
    rw [hu]
    exact h2 _ (by simp)

section
variable {r r' : RuleText} (h : SameButAside r r')
include h

theorem sameApart_mem {o : Bytes} (ho : ¬ (Aside o ∨ bs%"tag=" <+: RuleText.unsigned o)) : o ∈ r'.entries ↔ o ∈ r.entries := by
  have := congrArg (o ∈ ·) h.options
  simpa only [List.mem_filter, ho, not_false_eq_true, decide_true, and_true, eq_iff_iff] using this

theorem sameApart_exists {P : Bytes → Prop} (hP : ∀ o, P o → ¬ (Aside o ∨ bs%"tag=" <+: RuleText.unsigned o)) : (∃ o ∈ r'.entries, P o) ↔ ∃ o ∈ r.entries, P o := by
  constructor
  · rintro ⟨o, h1, h2⟩; exact ⟨o, (sameApart_mem h (hP o h2)).1 h1, h2⟩
  · rintro ⟨o, h1, h2⟩; exact ⟨o, (sameApart_mem h (hP o h2)).2 h1, h2⟩

theorem sameApart_supported : (∀ o ∈ r'.entries, ¬ RuleText.Unsupported o) ↔ ∀ o ∈ r.entries, ¬ RuleText.Unsupported o := by
  have := sameApart_exists h (P := RuleText.Unsupported) fun _ ho => not_or.2 ⟨not_aside_of_unsupported ho, not_tag_of_unsupported ho⟩
  constructor
  · intro h1 o ho hu
    obtain ⟨o', h2, h3⟩ := this.2 ⟨o, ho, hu⟩
    exact h1 o' h2 h3
  · intro h1 o ho hu
    obtain ⟨o', h2, h3⟩ := this.1 ⟨o, ho, hu⟩
    exact h1 o' h2 h3

theorem sameApart_says {n : Bytes} (hn : some n ∉ [some bs%"important", some bs%"explicitcancel", some bs%"first-party"]) :
    r'.Says n ↔ r.Says n :=
  sameApart_exists h fun o ho =>
    have hf : fullName (RuleText.unsigned o) = some n := by rw [unsigned_of_fullName ho]; exact ho
    not_or.2 ⟨not_aside_of_fullName hf hn, not_tag_of_fullName hf⟩

theorem sameApart_denies {n : Bytes} (hn : some n ∉ [some bs%"important", some bs%"explicitcancel", some bs%"first-party"]) :
    r'.Denies n ↔ r.Denies n :=
  sameApart_exists h fun _ ho => not_or.2 ⟨not_aside_of_fullName ho.2 hn, not_tag_of_fullName ho.2⟩

omit h in
/-- Options which do not begin with the key do not matter for its value. -/
theorem value_filter {k : Bytes} {A : Bytes → Prop} [DecidablePred A] (hk : ∀ o, k <+: RuleText.unsigned o → ¬ A o)
    (h : r'.entries.filter (fun o => decide (¬ A o)) = r.entries.filter (fun o => decide (¬ A o))) : r'.value k = r.value k := by
  have key : ∀ l : List Bytes,
      (l.filterMap fun o => if k.isPrefixOf (RuleText.unsigned o) then some ((RuleText.unsigned o).drop k.length) else none) =
      (l.filter fun o => decide (¬ A o)).filterMap fun o =>
        if k.isPrefixOf (RuleText.unsigned o) then some ((RuleText.unsigned o).drop k.length) else none := by
    intro l
    induction l with
    | nil => rfl
    | cons o l ih =>
      by_cases ha : A o
      · have hp : ¬ k.isPrefixOf (RuleText.unsigned o) = true := fun hp => hk o (List.isPrefixOf_iff_prefix.1 hp) ha
        rw [List.filter_cons_of_neg (by simp [ha]), List.filterMap_cons_none (by simp [hp]), ih]
      · rw [List.filter_cons_of_pos (by simp [ha]), List.filterMap_cons, List.filterMap_cons, ih]
  unfold RuleText.value
  rw [key, h, ← key]

theorem sameApart_domains : r'.value bs%"domain=" = r.value bs%"domain=" :=
  value_filter (fun _ ho => not_or.2 ⟨not_aside_of_prefix (k := bs%"domain=") (by simp) ho, not_tag_of_prefix (k := bs%"domain=") (by simp) ho⟩) h.options

theorem sameApart_types : r'.types = r.types := by
  unfold RuleText.types
  apply List.filter_congr
  intro t ht
  have := (by decide +kernel : ∀ t ∈ typeTable, some t.1 ∉ [some bs%"important", some bs%"explicitcancel", some bs%"first-party"]) t ht
  simp [sameApart_says h this]

theorem sameApart_notTypes : r'.notTypes = r.notTypes := by
  unfold RuleText.notTypes
  apply List.filter_congr
  intro t ht
  have := (by decide +kernel : ∀ t ∈ typeTable, some t.1 ∉ [some bs%"important", some bs%"explicitcancel", some bs%"first-party"]) t ht
  simp [sameApart_denies h this]

theorem sameApart_fields : r'.exception = r.exception ∧ r'.anchor = r.anchor ∧ r'.text = r.text ∧ r'.rightBar = r.rightBar ∧ r'.odd = r.odd := by
  have := h.rest
  refine ⟨?_, ?_, ?_, ?_, ?_⟩ <;> rw [← this]

theorem sameApart_hostPart : r'.hostPart = r.hostPart := by
  obtain ⟨-, -, h3, -, h5⟩ := sameApart_fields h
  unfold RuleText.hostPart
  rw [h3, h5]

theorem sameApart_hostOnly : r'.HostOnly ↔ r.HostOnly := by
  obtain ⟨-, h2, h3, h4, h5⟩ := sameApart_fields h
  unfold RuleText.HostOnly RuleText.written
  rw [h2, h3, h4, h5, sameApart_hostPart h]

theorem sameApart_typeAllowed (q : Request) : r'.TypeAllowed q ↔ r.TypeAllowed q := by
  have h1 : r'.TakenForType ↔ r.TakenForType := or_congr (sameApart_says h (by decide +kernel)) (sameApart_says h (by decide +kernel))
  unfold RuleText.TypeAllowed
  rw [sameApart_types h, sameApart_notTypes h]
  split <;> simp only [h1]

theorem sameApart_pageAllowed (q : Request) : r'.PageAllowed q ↔ r.PageAllowed q := by
  unfold RuleText.PageAllowed
  simp only [sameApart_says h (n := bs%"third-party") (by decide +kernel), sameApart_denies h (n := bs%"third-party") (by decide +kernel),
    sameApart_domains h]

theorem sameApart_applies {tags : List Bytes} (ht : r'.TagEnabled tags ↔ r.TagEnabled tags) (q : Request) :
    r'.AppliesTo tags q ↔ r.AppliesTo tags q := by
  obtain ⟨-, h2, h3, h4, h5⟩ := sameApart_fields h
  unfold RuleText.AppliesTo RuleText.AddressFits
  rw [sameApart_supported h, sameApart_typeAllowed h, sameApart_pageAllowed h, ht, h2, h3, h4, sameApart_hostPart h]

theorem sameApart_readsPast (q : Request) : r'.ReadsPast q ↔ r.ReadsPast q := by
  obtain ⟨-, h2, h3, h4, h5⟩ := sameApart_fields h
  unfold RuleText.ReadsPast
  simp only [sameApart_supported h, sameApart_typeAllowed h, sameApart_pageAllowed h, h2, h3, h4, sameApart_hostPart h, sameApart_hostOnly h]

theorem sameApart_byDomain (bad : List Bytes) (dl : Bytes) : ByDomain bad r' dl ↔ ByDomain bad r dl := by
  obtain ⟨-, -, h3, -, -⟩ := sameApart_fields h
  unfold ByDomain RuleText.Indexable
  rw [sameApart_domains h, sameApart_hostOnly h, h3]

end

theorem answers_mapped {E : Env} {A B : Bytes} {rs : List RuleText} {φ : RuleText → RuleText} (hA : Lists E A rs) (hB : Lists E B (rs.map φ))
    (hφ : ∀ r ∈ rs, SameButAside r (φ r)) {tags : List Bytes} (ht : ∀ r ∈ rs, ((φ r).TagEnabled tags ↔ r.TagEnabled tags))
    (preserve preserve' : Bool) {q : Request} (hq : Askable E rs q) :
    ∃ b, Answers E A preserve tags q b ∧ Answers E B preserve' tags q b := by
  have hq' : Askable E (rs.map φ) q := by
    refine ⟨hq.web, ⟨fun r hr => ?_⟩, fun hd r hr dl hdl => ?_, hq.rolls⟩
    · obtain ⟨x, hx, rfl⟩ := List.mem_map.1 hr
      rw [sameApart_readsPast (hφ x hx)]
      exact hq.safe.inBounds x hx
    · obtain ⟨x, hx, rfl⟩ := List.mem_map.1 hr
      exact hq.empty hd x hx dl ((sameApart_byDomain (hφ x hx) _ _).1 hdl)
  have kind : ∀ {x r : RuleText}, x ∈ rs → r ∈ rs → (((φ x).HostOnly ∧ (φ x).exception = (φ r).exception ∧ (φ x).hostPart = (φ r).hostPart) ↔
      (x.HostOnly ∧ x.exception = r.exception ∧ x.hostPart = r.hostPart)) := by
    intro x r hx hr
    rw [sameApart_hostOnly (hφ x hx), sameApart_hostPart (hφ x hx), sameApart_hostPart (hφ r hr), (sameApart_fields (hφ x hx)).1,
      (sameApart_fields (hφ r hr)).1]
  have excl : ∀ r ∈ rs, ((∀ dl, ByDomain E.bad (φ r) dl → positive dl = [] →
        ∀ r' ∈ rs.map φ, r'.exception = (φ r).exception → (∀ o ∈ r'.entries, ¬ RuleText.Unsupported o) →
        ∀ dl', ByDomain E.bad r' dl' → positive dl' = [] → ∀ d, q.domain = some d →
        ∀ s ∈ negative dl', ¬ (SameSite s d ∧ (s = d ∨ ch%'.' ∈ s))) ↔
      (∀ dl, ByDomain E.bad r dl → positive dl = [] →
        ∀ r' ∈ rs, r'.exception = r.exception → (∀ o ∈ r'.entries, ¬ RuleText.Unsupported o) →
        ∀ dl', ByDomain E.bad r' dl' → positive dl' = [] → ∀ d, q.domain = some d →
        ∀ s ∈ negative dl', ¬ (SameSite s d ∧ (s = d ∨ ch%'.' ∈ s)))) := by
    intro r hr
    constructor
    · intro h dl h1 h2 r' hr' h3 h4 dl' h5
      refine h dl ((sameApart_byDomain (hφ r hr) _ _).2 h1) h2 (φ r') (List.mem_map.2 ⟨r', hr', rfl⟩) ?_ ((sameApart_supported (hφ r' hr')).2 h4)
        dl' ((sameApart_byDomain (hφ r' hr') _ _).2 h5)
      rw [(sameApart_fields (hφ r hr)).1, (sameApart_fields (hφ r' hr')).1, h3]
    · intro h dl h1 h2 r' hr' h3 h4 dl' h5
      obtain ⟨x, hx, rfl⟩ := List.mem_map.1 hr'
      refine h dl ((sameApart_byDomain (hφ r hr) _ _).1 h1) h2 x hx ?_ ((sameApart_supported (hφ x hx)).1 h4)
        dl' ((sameApart_byDomain (hφ x hx) _ _).1 h5)
      rw [(sameApart_fields (hφ r hr)).1, (sameApart_fields (hφ x hx)).1] at h3
      exact h3
  refine answers_same hA hB preserve preserve' hq hq' fun s => ⟨?_, ?_⟩
  · rintro ⟨r, hr, he, hc, ha⟩
    refine ⟨φ r, List.mem_map.2 ⟨r, hr, rfl⟩, by rw [(sameApart_fields (hφ r hr)).1, he], ⟨?_, ?_, (excl r hr).2 hc.excluded⟩,
      (sameApart_applies (hφ r hr) (ht r hr) _).2 ha⟩
    · intro hh
      obtain ⟨⟨before, after, h1, h2⟩, h3⟩ := hc.host ((sameApart_hostOnly (hφ r hr)).1 hh)
      rw [sameApart_hostPart (hφ r hr)]
      refine ⟨⟨before.map φ, after.map φ, by rw [h1]; simp, fun x hx => ?_⟩, h3⟩
      obtain ⟨y, hy, rfl⟩ := List.mem_map.1 hx
      rw [← sameApart_hostPart (hφ r hr), kind (by rw [h1]; simp [hy]) hr]
      exact h2 y hy
    · exact fun dl h1 => hc.page dl ((sameApart_byDomain (hφ r hr) _ _).1 h1)
  · rintro ⟨r, hr, he, hc, ha⟩
    by_cases hh : r.HostOnly
    · obtain ⟨⟨before, after, h1, h2⟩, h3⟩ := hc.host hh
      obtain ⟨b, l, h4, rfl, h5⟩ := List.map_eq_append_iff.1 h1
      obtain ⟨x, a, rfl, rfl, rfl⟩ := List.map_eq_cons_iff.1 h5
      have hx : x ∈ rs := by rw [h4]; simp
      refine ⟨x, hx, by rw [← (sameApart_fields (hφ x hx)).1, he], ⟨fun _ => ⟨⟨b, a, h4, fun y hy => ?_⟩, ?_⟩, ?_, (excl x hx).1 hc.excluded⟩,
        (sameApart_applies (hφ x hx) (ht x hx) _).1 ha⟩
      · rw [← kind (by rw [h4]; simp [hy]) hx]
        exact h2 _ (List.mem_map.2 ⟨y, hy, rfl⟩)
      · rw [← sameApart_hostPart (hφ x hx)]
        exact h3
      · exact fun dl h1 => hc.page dl ((sameApart_byDomain (hφ x hx) _ _).2 h1)
    · obtain ⟨x, hx, rfl⟩ := List.mem_map.1 hr
      refine ⟨x, hx, by rw [← (sameApart_fields (hφ x hx)).1, he], ⟨fun hh' => absurd ((sameApart_hostOnly (hφ x hx)).2 hh') hh, ?_, (excl x hx).1 hc.excluded⟩,
        (sameApart_applies (hφ x hx) (ht x hx) _).1 ha⟩
      exact fun dl h1 => hc.page dl ((sameApart_byDomain (hφ x hx) _ _).2 h1)

/-- **C53** in terms of the text: two lists whose rules differ only in options that do not say for which requests a rule is
(`important`, `explicitcancel`, `redirect=`; and `first-party`, which has no effect either) give the same answers. -/
theorem C53_text {E : Env} {A B : Bytes} {rs : List RuleText} {φ : RuleText → RuleText} (hA : Lists E A rs) (hB : Lists E B (rs.map φ))
    (hφ : ∀ r ∈ rs, SameApart r (φ r)) (preserve preserve' : Bool) (tags : List Bytes) {q : Request} (hq : Askable E rs q) :
    ∃ b, Answers E A preserve tags q b ∧ Answers E B preserve' tags q b := by
  refine answers_mapped hA hB (fun r hr => sameButAside_apart (hφ r hr)) (fun r hr => ?_) preserve preserve' hq
  unfold RuleText.TagEnabled
  rw [value_filter (fun _ ho => not_aside_of_prefix (k := bs%"tag=") (by simp) ho) (hφ r hr).options]

/-- **C30** in terms of the text: with their tags enabled, tagged rules are as good as rules without tags. -/
theorem C30_text_enabled {E : Env} {A B : Bytes} {rs : List RuleText} {φ : RuleText → RuleText} (hA : Lists E A rs) (hB : Lists E B (rs.map φ))
    {tags : List Bytes} (hφ : ∀ r ∈ rs, φ r = r ∨
      (SameApartFromTag r (φ r) ∧ (φ r).value bs%"tag=" = none ∧ ∀ t, r.value bs%"tag=" = some t → t ∈ tags))
    (preserve preserve' : Bool) {q : Request} (hq : Askable E rs q) :
    ∃ b, Answers E A preserve tags q b ∧ Answers E B preserve' tags q b := by
  refine answers_mapped hA hB (fun r hr => ?_) (fun r hr => ?_) preserve preserve' hq
  · rcases hφ r hr with h | ⟨h, -⟩
    · rw [h]; exact ⟨rfl, rfl⟩
    · exact sameButAside_tag h
  · rcases hφ r hr with h | ⟨-, h1, h2⟩
    · rw [h]
    · unfold RuleText.TagEnabled
      rw [h1]
      constructor
      · intro _ t ht; exact .inr (h2 t ht)
      · intro _ t ht; cases ht

/-- **C30** in terms of the text: rules whose tags are not enabled can be left out, wherever they are in the list, unless they
consist of a host, or only exclude domains and cannot be indexed. -/
theorem C30_text_disabled_partial {E : Env} {A B : Bytes} {rs : List RuleText} {p : RuleText → Bool} (hA : Lists E A rs) (hB : Lists E B (rs.filter p))
    {tags : List Bytes} (hp : ∀ r ∈ rs, p r = false → (∃ t, r.value bs%"tag=" = some t ∧ t ≠ [] ∧ t ∉ tags) ∧ ¬ r.HostOnly ∧
      ∀ dl, ByDomain E.bad r dl → positive dl ≠ [])
    (preserve preserve' : Bool) {q : Request} (hq : Askable E rs q) :
    ∃ b, Answers E A preserve tags q b ∧ Answers E B preserve' tags q b := by
  have hq' : Askable E (rs.filter p) q :=
    ⟨hq.web, ⟨fun r hr => hq.safe.inBounds r (List.mem_filter.1 hr).1⟩, fun hd r hr => hq.empty hd r (List.mem_filter.1 hr).1, hq.rolls⟩
  refine answers_same hA hB preserve preserve' hq hq' fun s => ⟨?_, ?_⟩
  · rintro ⟨r, hr, he, hc, ha⟩
    have hpr : p r = true := by
      cases h : p r with
      | true => rfl
      | false =>
        obtain ⟨⟨t, h1, h2, h3⟩, -⟩ := hp r hr h
        exact absurd (ha.2.2.2.1 t h1) (not_or.2 ⟨h2, h3⟩)
    refine ⟨r, List.mem_filter.2 ⟨hr, hpr⟩, he, ⟨fun hh => ?_, hc.page, fun dl h1 h2 r' hr' => hc.excluded dl h1 h2 r' (List.mem_filter.1 hr').1⟩, ha⟩
    obtain ⟨⟨before, after, h1, h2⟩, h3⟩ := hc.host hh
    exact ⟨⟨before.filter p, after.filter p, by rw [h1, List.filter_append, List.filter_cons_of_pos hpr],
      fun x hx => h2 x (List.mem_filter.1 hx).1⟩, h3⟩
  · rintro ⟨r, hr, he, hc, ha⟩
    obtain ⟨hr, hpr⟩ := List.mem_filter.1 hr
    refine ⟨r, hr, he, ⟨fun hh => ?_, hc.page, fun dl h1 h2 r' hr' h3 h4 dl' h5 h6 => ?_⟩, ha⟩
    · obtain ⟨⟨before, after, h1, h2⟩, h3⟩ := hc.host hh
      refine ⟨?_, h3⟩
      obtain ⟨l1, l2, h4, h5, h6⟩ := List.filter_eq_append_iff.1 h1
      obtain ⟨l3, l4, h7, h8, h9, h10⟩ := List.filter_eq_cons_iff.1 h6
      refine ⟨l1 ++ l3, l4, by rw [h4, h7]; simp, fun x hx hk => ?_⟩
      rcases List.mem_append.1 hx with hx | hx
      · cases h : p x with
        | true => exact h2 x (by rw [← h5]; exact List.mem_filter.2 ⟨hx, h⟩) hk
        | false => exact (hp x (by rw [h4]; simp [hx]) h).2.1 hk.1
      · exact (hp x (by rw [h4, h7]; simp [hx]) (by simpa using h8 x hx)).2.1 hk.1
    · cases h : p r' with
      | true => exact hc.excluded dl h1 h2 r' (List.mem_filter.2 ⟨hr', h⟩) h3 h4 dl' h5 h6
      | false => exact absurd h6 ((hp r' hr' h).2.2 dl' h5)

/-! ### examples -/

/-- One way to write a list of rules. -/
theorem lists_rules {E : Env} {rs : List RuleText} (h : SoundList E.bad rs) (hne : rs ≠ []) : Lists E (listText (rs.map RuleText.line)) rs := by
  have hclean : ∀ l ∈ rs.map RuleText.line, ∀ c ∈ l, c ≠ 0 ∧ c ≠ 10 ∧ c ≠ 13 := by
    intro l hl
    obtain ⟨r, hr, rfl⟩ := List.mem_map.1 hl
    exact rule_line_clean (h.wellFormed r hr)
  refine ⟨fun h0 => ?_, ?_, h⟩
  · rcases mem_listText h0 with h0 | ⟨l, hl, hc⟩
    · cases h0
    · exact (hclean l hl 0 hc).1 rfl
  · rw [lines_listText (fun l hl c hc => (hclean l hl c hc).2) (by simpa using hne)]
    clear h hne hclean
    induction rs with
    | nil => exact .nil
    | cons r rs ih => exact .rule r ih

theorem exLaw_lists {E : Env} : Lists E exText exRules := ⟨by decide +kernel, exList, exSound⟩

/-- the rules of the example and another one -/
def exLaw_more : List RuleText := exRules ++ [{ text := bs%"-banner" }]

theorem exLaw_more_sound {bad : List Bytes} : SoundList bad exLaw_more where
  wellFormed r hr := RuleText.wellFormed ((by decide +kernel : ∀ r ∈ exLaw_more, r.ok = true) r hr)
  fits r hr := fits_of_entries ((by decide +kernel : ∀ r ∈ exLaw_more, ∀ o ∈ r.entries, o.length ≤ 1024) r hr)

theorem exLaw_more_askable {E : Env} (hroll : ∀ url, E.fp.rolls url) {q : Request} (hq : q.Web) : Askable E exLaw_more q where
  web := hq
  rolls := hroll _
  empty _ r hr dl hd := by
    have : ∀ r ∈ exLaw_more, ∀ dl ∈ (r.value bs%"domain=").toList, [] ∉ negative dl := by decide +kernel
    exact this r hr dl (by rw [hd.1]; simp)
  safe := ⟨fun r hr => by
    have h := safeRule_ok ((by decide +kernel : ∀ r ∈ exLaw_more, safeRule (r.filter false) = true) r hr)
    exact inBounds_of (fun part hp => CaretEdge.safe ((h r.text (filter_hasText ((exLaw_more_sound (bad := [])).wellFormed r hr) false)).1 part hp) q.url)
      (fun _ _ => (by decide +kernel : ∀ r ∈ exLaw_more, r.text ≠ [] ∧ r.text.getLast? ≠ some ch%'*') r hr)
      fun hh h => absurd ((by decide +kernel : ∀ r ∈ exLaw_more, r.HostOnly → r.rightBar = false) r hr hh) (by simp [h])⟩

theorem askable_subset {E : Env} {rs rs' : List RuleText} {q : Request} (h : Askable E rs q) (hs : ∀ r ∈ rs', r ∈ rs) : Askable E rs' q :=
  ⟨h.web, ⟨fun r hr => h.safe.inBounds r (hs r hr)⟩, fun hd r hr => h.empty hd r (hs r hr), h.rolls⟩

theorem exRules_askable {E : Env} (hroll : ∀ url, E.fp.rolls url) {q : Request} (hq : q.Web) : Askable E exRules q :=
  askable_subset (exLaw_more_askable hroll hq) fun _ hr => List.mem_append_left _ hr

/-- the first rule and the first exception count -/
theorem exLaw_counted (bad : List Bytes) : Counted bad exRules exScript exRules[0] ∧ Counted bad exRules exOk exRules[3] := by
  have h0 : exRules[0].value bs%"domain=" = none := by decide +kernel
  have h3 : exRules[3].value bs%"domain=" = none := by decide +kernel
  refine ⟨⟨fun _ => ⟨⟨[], exRules.tail, rfl, by simp⟩, .inl (by decide +kernel)⟩, ?_, ?_⟩,
    ⟨fun hh => absurd hh (by decide +kernel), ?_, ?_⟩⟩
  · intro dl h; exact absurd (h0.symm.trans h.1) (by simp)
  · intro dl h; exact absurd (h0.symm.trans h.1) (by simp)
  · intro dl h; exact absurd (h3.symm.trans h.1) (by simp)
  · intro dl h; exact absurd (h3.symm.trans h.1) (by simp)

/-- The list of the example blocks a script ... -/
theorem exLaw_blocked {E : Env} (hroll : ∀ url, E.fp.rolls url) : Answers E exText true [bs%"track"] exScript true := by
  obtain ⟨b, h1, h2⟩ := answers_iff (E := E) exLaw_lists true [bs%"track"] (exRules_askable hroll exWeb.1)
  have : b = true := by
    rw [h2]
    refine ⟨⟨exRules[0], by simp [exRules], rfl, (exLaw_counted _).1, ?_⟩, ?_⟩
    · exact (acts_iff ((exSound (bad := [])).wellFormed exRules[0] (by simp [exRules])) true exWeb.1
        ((exRules_askable hroll exWeb.1).safe.inBounds _ (by simp [exRules])) _).1 ⟨by decide +kernel, .inl (by decide +kernel)⟩
    · rintro ⟨r, hr, he, -, ha⟩
      exact exRuleTrue.1 ⟨r, hr, he, ha⟩
  exact this ▸ h1

/-- ... but not another one, for which there is an exception (C25). -/
theorem exLaw_excepted {E : Env} (hroll : ∀ url, E.fp.rolls url) : Answers E exText true [bs%"track"] exOk false :=
  C25_text exLaw_lists true _ (exRules_askable hroll exWeb.2) (r := exRules[3]) (by simp [exRules]) rfl (exLaw_counted _).2
    ((acts_iff ((exSound (bad := [])).wellFormed exRules[3] (by simp [exRules])) true exWeb.2
        ((exRules_askable hroll exWeb.2).safe.inBounds _ (by simp [exRules])) _).1 ⟨by decide +kernel, .inl (by decide +kernel)⟩)

/-- With another rule the first is still blocked (C26). -/
example {E : Env} (hroll : ∀ url, E.fp.rolls url) :
    Answers E (listText (exLaw_more.map RuleText.line)) false [bs%"track"] exScript true := by
  refine C26_text_partial exLaw_lists (lists_rules exLaw_more_sound (by simp)) (exLaw_more_askable hroll exWeb.1) ?_ ?_ (exLaw_blocked hroll)
  · simp
  · intro r hr _ dl hd
    rw [List.mem_singleton.1 hr] at hd
    have hv : ({ text := bs%"-banner" } : RuleText).value bs%"domain=" = none := by decide +kernel
    exact absurd (hv.symm.trans hd.1) (by simp)

/-- With the rules in the reverse order, the answers are the same (C52), and with one of them repeated (C51). -/
example {E : Env} (hroll : ∀ url, E.fp.rolls url) :
    Answers E (listText (exRules.reverse.map RuleText.line)) true [bs%"track"] exScript true ∧
    Answers E (listText ((exRules ++ [exRules[3]]).map RuleText.line)) true [bs%"track"] exOk false := by
  constructor
  · obtain ⟨b, h1, h2⟩ := C52_text_partial (E := E) (rs' := exRules.reverse) exLaw_lists (lists_rules (soundList_subset exSound (by simp)) (by simp [exRules]))
      (by simp) true true [bs%"track"] (exRules_askable hroll exWeb.1) (exClear exScript).different
    exact answers_unique h1 (exLaw_blocked hroll) ▸ h2
  · obtain ⟨b, h1, h2⟩ := C51_text (E := E) (again := [exRules[3]]) exLaw_lists (lists_rules (soundList_subset exSound (by simp [exRules])) (by simp))
      true true [bs%"track"] (exRules_askable hroll exWeb.2) (by simp [exRules])
    exact answers_unique h1 (exLaw_excepted hroll) ▸ h2

/-- the rules of the example, but important -/
def exLaw_important (r : RuleText) : RuleText :=
  { r with options := some (match r.options with | none => bs%"important" | some o => o ++ bs%",redirect=1x1.gif,important") }

theorem exLaw_important_sound {bad : List Bytes} : SoundList bad (exRules.map exLaw_important) where
  wellFormed r hr := RuleText.wellFormed ((by decide +kernel : ∀ r ∈ exRules.map exLaw_important, r.ok = true) r hr)
  fits r hr := fits_of_entries ((by decide +kernel : ∀ r ∈ exRules.map exLaw_important, ∀ o ∈ r.entries, o.length ≤ 1024) r hr)

theorem exLaw_important_same : ∀ r ∈ exRules, SameApart r (exLaw_important r) := fun r hr =>
  ⟨rfl, (by decide +kernel : ∀ r ∈ exRules, (exLaw_important r).entries.filter (fun o => decide (¬ Aside o)) =
    r.entries.filter (fun o => decide (¬ Aside o))) r hr⟩

/-- This changes nothing (C53), not even for the request for which there is an exception (C27). -/
example {E : Env} (hroll : ∀ url, E.fp.rolls url) :
    Answers E (listText ((exRules.map exLaw_important).map RuleText.line)) true [bs%"track"] exScript true ∧
    Answers E (listText ((exRules.map exLaw_important).map RuleText.line)) true [bs%"track"] exOk false := by
  have hB := lists_rules (E := E) exLaw_important_sound (by simp [exRules])
  constructor
  · obtain ⟨b, h1, h2⟩ := C53_text exLaw_lists hB exLaw_important_same true true [bs%"track"] (exRules_askable hroll exWeb.1)
    exact answers_unique h1 (exLaw_blocked hroll) ▸ h2
  · obtain ⟨b, h1, h2⟩ := C53_text exLaw_lists hB exLaw_important_same true true [bs%"track"] (exRules_askable hroll exWeb.2)
    exact answers_unique h1 (exLaw_excepted hroll) ▸ h2

/-- the rules of the example without tags -/
def exLaw_untagged (r : RuleText) : RuleText :=
  if r.value bs%"tag=" = none then r else { r with options := some bs%"domain=news.com|~blog.news.com" }

theorem exLaw_untagged_sound {bad : List Bytes} : SoundList bad (exRules.map exLaw_untagged) where
  wellFormed r hr := RuleText.wellFormed ((by decide +kernel : ∀ r ∈ exRules.map exLaw_untagged, r.ok = true) r hr)
  fits r hr := fits_of_entries ((by decide +kernel : ∀ r ∈ exRules.map exLaw_untagged, ∀ o ∈ r.entries, o.length ≤ 1024) r hr)

/-- One rule of the example has a tag.  If it is enabled, the answers are those of the list without the tag; otherwise those of the
list without the rule (C30). -/
example {E : Env} (hroll : ∀ url, E.fp.rolls url) {q : Request} (hq : q.Web) :
    (∃ b, Answers E exText true [bs%"track"] q b ∧ Answers E (listText ((exRules.map exLaw_untagged).map RuleText.line)) true [bs%"track"] q b) ∧
    (∃ b, Answers E exText true [] q b ∧
      Answers E (listText ((exRules.filter fun r => (r.value bs%"tag=").isNone).map RuleText.line)) true [] q b) := by
  constructor
  · refine C30_text_enabled exLaw_lists (lists_rules exLaw_untagged_sound (by simp [exRules])) ?_ true true (exRules_askable hroll hq)
    intro r hr
    by_cases ht : r.value bs%"tag=" = none
    · exact .inl (if_pos ht)
    · refine .inr ⟨⟨?_, ?_⟩, ?_, ?_⟩
      · unfold exLaw_untagged; rw [if_neg ht]
      · exact (by decide +kernel : ∀ r ∈ exRules, (exLaw_untagged r).entries.filter (fun o => decide (¬ bs%"tag=" <+: RuleText.unsigned o)) =
          r.entries.filter (fun o => decide (¬ bs%"tag=" <+: RuleText.unsigned o))) r hr
      · exact (by decide +kernel : ∀ r ∈ exRules, (exLaw_untagged r).value bs%"tag=" = none) r hr
      · intro t h
        exact (by decide +kernel : ∀ r ∈ exRules, ∀ t ∈ (r.value bs%"tag=").toList, t ∈ [bs%"track"]) r hr t (by rw [h]; simp)
  · refine C30_text_disabled_partial exLaw_lists (lists_rules (soundList_subset exSound fun r hr => (List.mem_filter.1 hr).1) (by decide +kernel)) ?_
      true true (exRules_askable hroll hq)
    intro r hr hp
    have h1 : ∀ r ∈ exRules, (r.value bs%"tag=").isNone = false → r.value bs%"tag=" = some bs%"track" ∧ ¬ r.HostOnly ∧
      ∀ dl ∈ (r.value bs%"domain=").toList, positive dl ≠ [] := by decide +kernel
    obtain ⟨h2, h3, h4⟩ := h1 r hr hp
    exact ⟨⟨_, h2, by simp, by simp⟩, h3, fun dl hd => h4 dl (by rw [hd.1]; simp)⟩

/-- rules about the contents of pages as they are usually written -/
theorem aboutPages_plain {domains mark selector : Bytes} (hne : domains ≠ []) (hd : ∀ c ∈ domains, c ∉ bs%"|@![/$# \t")
    (hm : mark ∈ [bs%"##", bs%"#@", bs%"$$"]) (hl : domains.length < 2047) : AboutPages (domains ++ (mark ++ selector)) := by
  have hord : ¬ Remark (domains ++ (mark ++ selector)) ∧ ¬ RegexLine (domains ++ (mark ++ selector)) := by
    cases domains with
    | cons c ds =>
      have := hd c (by simp)
      have sub : ∀ x ∈ bs%"@![/ \t", x ∈ bs%"|@![/$# \t" := by decide
      exact begins_ordinary (fun h => this (sub _ h)) (fun h => absurd (by rw [h]; decide) this)
    | nil => exact absurd rfl hne
  have hn : ∀ x ∈ bs%"|@![/$# \t", x ∉ domains := fun x hx h => hd x h hx
  exact ⟨domains, mark, selector, ⟨rfl, ⟨hn _ (by decide), fun x y e => absurd (by rw [e]; simp) (hn ch%'#' (by decide))⟩, hord.1, hord.2⟩,
    hm, hl⟩

/-- The rule about elements and the one about HTML can be taken out of a list (C44). -/
example {E : Env} (hroll : ∀ url, E.fp.rolls url) {q : Request} (hq : q.Web) :
    ∃ b, Answers E bs%"b.com$$script\nnews.com##.banner\n||ads.example.com^" true [] q b ∧ Answers E bs%"||ads.example.com^" true [] q b := by
  have hlines : lines bs%"b.com$$script\nnews.com##.banner\n||ads.example.com^" =
      [bs%"b.com$$script", bs%"news.com##.banner", exRules[0].line] := by decide +kernel
  have hA : Lists E bs%"b.com$$script\nnews.com##.banner\n||ads.example.com^" [exRules[0]] := by
    refine ⟨by decide +kernel, ?_, soundList_subset exSound (by simp)⟩
    rw [hlines]
    exact .page ⟨bs%"b.com", bs%"$$", bs%"script", by decide, by decide, by decide, by decide⟩
      (.page ⟨bs%"news.com", bs%"##", bs%".banner", by decide, by decide, by decide, by decide⟩ (.rule _ .nil))
  refine C44_text hA (by decide +kernel) (keep := fun l => decide (l ∉ [bs%"b.com$$script", bs%"news.com##.banner"])) (by decide +kernel) ?_
    true true [] (askable_subset (exRules_askable hroll hq) (by simp))
  intro l _ hk
  have : l = bs%"b.com$$script" ∨ l = bs%"news.com##.banner" := by
    have := Classical.not_not.1 (of_decide_eq_false hk)
    simpa using this
  rcases this with rfl | rfl
  · exact aboutPages_plain (domains := bs%"b.com") (mark := bs%"$$") (selector := bs%"script") (by decide) (by decide) (by decide) (by decide)
  · exact aboutPages_plain (domains := bs%"news.com") (mark := bs%"##") (selector := bs%".banner") (by decide) (by decide) (by decide) (by decide)

end AdBlock
