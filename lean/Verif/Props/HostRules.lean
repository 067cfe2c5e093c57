import Verif.Props.HostForms
/-
Lists of rules that consist of a host (C99), and exceptions that do (C100).
-/
namespace AdBlock
open Spec

theorem whole_askable {E : Env} {rs : List RuleText} (hw : ∀ r ∈ rs, WholeHost r) {q : Request} (hq : q.Web) (hroll : E.fp.rolls q.url) : Askable E rs q :=
  ⟨hq, ⟨fun r hr => whole_safe (hw r hr) q⟩, fun _ r hr _ h => absurd (hw r hr).2.1 h.2.1, hroll⟩

theorem whole_applies {r : RuleText} (h : WholeHost r) {q q' : Request} (hq : q.Web) (hq' : q'.Web) (hs : SameApartFromAddress q q') (tags : List Bytes) :
    r.AppliesTo tags q' ↔ r.AppliesTo tags q := by
  unfold RuleText.AppliesTo RuleText.TypeAllowed RuleText.PageAllowed
  rw [whole_fits h hq, whole_fits h hq', hs.host, hs.type, hs.page]

theorem whole_counted {bad : List Bytes} {rs : List RuleText} {r : RuleText} (h : WholeHost r) {q q' : Request} (hs : SameApartFromAddress q q') :
    Counted bad rs q' r ↔ Counted bad rs q r := by
  have key : ∀ q, Counted bad rs q r ↔ HostCounted rs q r := fun q =>
    ⟨Counted.host, fun hc => ⟨hc, fun dl hd => absurd h.2.1 hd.2.1, fun dl hd => absurd h.2.1 hd.2.1⟩⟩
  rw [key, key]
  unfold HostCounted
  rw [hs.host]

/-- **C99**: if all rules of a list consist of a host, the answer depends on nothing in the address but its host. -/
theorem C99_host_only {E : Env} {A : Bytes} {rs : List RuleText} (hA : Lists E A rs) (hw : ∀ r ∈ rs, WholeHost r) (preserve : Bool) (tags : List Bytes)
    {q q' : Request} (hq : q.Web) (hq' : q'.Web) (hs : SameApartFromAddress q q') (hroll : E.fp.rolls q.url) (hroll' : E.fp.rolls q'.url) :
    ∃ b, Answers E A preserve tags q b ∧ Answers E A preserve tags q' b := by
  obtain ⟨b, h1, h2⟩ := answers_iff hA preserve tags (whole_askable hw hq hroll)
  obtain ⟨b', h3, h4⟩ := answers_iff hA preserve tags (whole_askable hw hq' hroll')
  have key : ∀ s, (∃ r ∈ rs, r.exception = s ∧ Counted E.bad rs q' r ∧ r.AppliesTo tags q') ↔
      ∃ r ∈ rs, r.exception = s ∧ Counted E.bad rs q r ∧ r.AppliesTo tags q := fun s => by
    refine exists_congr fun r => and_congr_right fun hr => and_congr_right fun _ => ?_
    rw [whole_counted (hw r hr) hs, whole_applies (hw r hr) hq hq' hs]
  rw [key, key] at h4
  have : b = b' := by rw [Bool.eq_iff_iff, h2, h4]
  exact ⟨b, h1, this ▸ h3⟩

/-- An exception without options that consists of a host applies to all requests to the host and its subdomains, main documents aside. -/
theorem exception_applies {e : RuleText} (he : WholeHost e) (ho : e.options = none) {q : Request} (hq : q.Web) (hsite : SameSite e.hostPart q.host)
    (hdoc : ∀ t, q.type = some t → t.1 ≠ bs%"document") (tags : List Bytes) : e.AppliesTo tags q := by
  have hent : e.entries = [] := by unfold RuleText.entries; rw [ho]
  have says : ∀ n, ¬ e.Says n := fun n h => by obtain ⟨o, h, -⟩ := h; rw [hent] at h; cases h
  have denies : ∀ n, ¬ e.Denies n := fun n h => by obtain ⟨o, h, -⟩ := h; rw [hent] at h; cases h
  have value : ∀ k, e.value k = none := fun k => by unfold RuleText.value; rw [hent]; rfl
  have types : e.types = [] := List.filter_eq_nil_iff.2 fun t _ => by simpa using says t.1
  have notTypes : e.notTypes = [] := List.filter_eq_nil_iff.2 fun t _ => by simpa using denies t.1
  have taken : ¬ e.TakenForType := fun h => h.elim (says _) (says _)
  refine ⟨fun o h => (by rw [hent] at h; cases h), ?_, fun d _ => ⟨fun h => absurd h (says _), fun h => absurd h (denies _), fun dl h => ?_⟩,
    fun t h => ?_, (whole_fits he hq).2 hsite⟩
  · unfold RuleText.TypeAllowed
    split
    · rename_i t ht
      rw [types, notTypes]
      exact ⟨.inr ⟨rfl, taken⟩, by simp, fun h => absurd h (hdoc t ht)⟩
    · exact ⟨types, fun _ => notTypes, fun _ => taken⟩
  · rw [value] at h; cases h
  · rw [value] at h; cases h

/-- **C100**, for exceptions for a host with a dot (or for requests to the host itself), if no exception before it consists of the same host: nothing
that comes from the host or a subdomain of it is blocked, whatever else is in the list, main documents aside. -/
theorem C100_exception_partial {E : Env} {A : Bytes} {before after : List RuleText} {e : RuleText} (hA : Lists E A (before ++ e :: after))
    (hex : e.exception = true) (he : WholeHost e) (ho : e.options = none)
    (hfirst : ∀ r ∈ before, r.exception = true → r.HostOnly → r.hostPart ≠ e.hostPart) (preserve : Bool) (tags : List Bytes)
    {q : Request} (hq : Askable E (before ++ e :: after) q) (hsite : SameSite e.hostPart q.host) (hdot : e.hostPart = q.host ∨ ch%'.' ∈ e.hostPart)
    (hdoc : ∀ t, q.type = some t → t.1 ≠ bs%"document") : Answers E A preserve tags q false := by
  obtain ⟨b, h1, h2⟩ := answers_iff hA preserve tags hq
  have : b = false := by
    rw [← Bool.not_eq_true, h2]
    rintro ⟨-, hno⟩
    refine hno ⟨e, by simp, hex, ⟨fun _ => ⟨⟨before, after, rfl, ?_⟩, hdot⟩, fun dl hd => absurd he.2.1 hd.2.1, fun dl hd => absurd he.2.1 hd.2.1⟩,
      exception_applies he ho hq.web hsite hdoc tags⟩
    rintro r hr ⟨h3, h4, h5⟩
    exact hfirst r hr (h4.trans hex) h3 h5
  exact this ▸ h1

/-! ### Examples -/

/-- `||ads.com^$image`: whatever image of the host is asked for, by whatever scheme and from whatever port, it is blocked. -/
example (E : Env) (hroll : ∀ url, E.fp.rolls url) : Answers E bs%"||ads.com^$image" false [] exAds true ∧
    Answers E bs%"||ads.com^$image" false [] { exAds with scheme := bs%"wss", rest := bs%":8080/a?b=c" } true := by
  have hp : ∀ r ∈ [exImages], plainRule r = true := by decide +kernel
  have hl : Lists E bs%"||ads.com^$image" [exImages] := lists_rules (plainRules_sound hp) (by simp)
  have h0 : Answers E bs%"||ads.com^$image" false [] exAds true :=
    answers_compared (r := exImages) (v := true) hroll (hp _ (by simp)) rfl (.inr (by decide +kernel)) (by decide +kernel) (by decide +kernel) exAds_web (by decide +kernel)
  obtain ⟨b, h1, h2⟩ := C99_host_only hl (fun r hr => by rw [List.mem_singleton.1 hr]; exact ⟨rfl, by decide +kernel⟩) false [] exAds_web
    (q' := { exAds with scheme := bs%"wss", rest := bs%":8080/a?b=c" })
    ⟨by decide +kernel, exAds_web.host, .inr ⟨_, _, rfl, by decide +kernel⟩, ⟨exAds_web.text.1, by decide +kernel⟩, exAds_web.type⟩ ⟨rfl, rfl, rfl⟩
    (hroll _) (hroll _)
  rw [answers_unique h1 h0] at h2
  exact ⟨h0, h2⟩

private def exWord : RuleText := { text := bs%"banner" }
private def exFree : RuleText := { exception := true, anchor := .host, text := bs%"b.com^" }
private def exFreeImages : RuleText := { exception := true, anchor := .host, text := bs%"b.com^", options := some bs%"image" }
private def exFreeNet : RuleText := { exception := true, anchor := .host, text := bs%"intranet^" }

private theorem exBanner_sub (sub : Bytes) (h0 : sub ≠ []) (h : ∀ c ∈ sub, ¬ IsSep c) (h' : 0 ∉ sub) : ({ exBanner with host := sub } : Request).Web :=
  ⟨exBanner_web.scheme, ⟨h0, h⟩, exBanner_web.rest, ⟨h', exBanner_web.text.2⟩, exBanner_web.type⟩

/-- With the exception nothing from the host and its subdomains is blocked. -/
example (E : Env) (hroll : ∀ url, E.fp.rolls url) : Answers E bs%"banner\n@@||b.com^" false [] exBanner false ∧
    Answers E bs%"banner\n@@||b.com^" false [] { exBanner with host := bs%"a.b.com" } false := by
  have hp : ∀ r ∈ [exWord, exFree], plainRule r = true := by decide +kernel
  have hl : Lists E bs%"banner\n@@||b.com^" [exWord, exFree] := lists_rules (plainRules_sound hp) (by simp)
  have hf : ∀ r ∈ [exWord], r.exception = true → r.HostOnly → r.hostPart ≠ exFree.hostPart := fun r hr h => by
    rw [List.mem_singleton.1 hr] at h; cases h
  have hdoc : ∀ t, exBanner.type = some t → t.1 ≠ bs%"document" := by rintro t ⟨⟩; decide
  constructor
  · exact C100_exception_partial (before := [exWord]) hl rfl ⟨rfl, by decide +kernel⟩ rfl hf false [] (plainRules_askable hroll hp exBanner_web)
      (.inl (by decide +kernel)) (.inl (by decide +kernel)) hdoc
  · exact C100_exception_partial (before := [exWord]) hl rfl ⟨rfl, by decide +kernel⟩ rfl hf false []
      (plainRules_askable hroll hp (exBanner_sub bs%"a.b.com" (by decide) (by decide +kernel) (by decide)))
      (.inr ⟨bs%"a", by decide +kernel⟩) (.inr (by decide +kernel)) hdoc

theorem blocked_word {E : Env} {A : Bytes} {rs : List RuleText} (hA : Lists E A (exWord :: rs)) {q : Request} (hq : Askable E (exWord :: rs) q)
    (ha : exWord.AppliesTo [] q) (hno : ∀ r ∈ rs, Counted E.bad (exWord :: rs) q r → ¬ r.AppliesTo [] q) : Answers E A false [] q true := by
  obtain ⟨b, h1, h2⟩ := answers_iff hA false [] hq
  have hd : exWord.value bs%"domain=" = none := by decide +kernel
  have hh : ¬ exWord.HostOnly := by decide +kernel
  have : b = true := by
    rw [h2]
    refine ⟨⟨exWord, by simp, rfl, ⟨fun h => absurd h hh, fun dl h => absurd (hd.symm.trans h.1) (by simp), fun dl h => absurd (hd.symm.trans h.1) (by simp)⟩, ha⟩, ?_⟩
    rintro ⟨r, hr, he, hc, ha⟩
    rcases List.mem_cons.1 hr with rfl | hr
    · cases he
    · exact hno r hr hc ha
  exact this ▸ h1

/-- **C100** fails for the subdomains of a host without a dot. -/
theorem C100_dot_counterexample {E : Env} (hroll : ∀ url, E.fp.rolls url) :
    Answers E bs%"banner\n@@||intranet^" false [] { exBanner with host := bs%"a.intranet" } true := by
  have hp : ∀ r ∈ [exWord, exFreeNet], plainRule r = true := by decide +kernel
  have hweb := exBanner_sub bs%"a.intranet" (by decide) (by decide +kernel) (by decide)
  refine blocked_word (lists_rules (plainRules_sound hp) (by simp)) (plainRules_askable hroll hp hweb)
    ((applies_compared (v := true) (hp _ (by simp)) hweb (by decide +kernel) (by decide +kernel) []).2 rfl) fun r hr hc _ => ?_
  rw [List.mem_singleton.1 hr] at hc
  exact absurd (hc.host (by decide +kernel)).2 (by decide +kernel)

/-- **C100** fails if an exception with options consists of the same host and comes before. -/
theorem C100_first_counterexample {E : Env} (hroll : ∀ url, E.fp.rolls url) :
    Answers E bs%"banner\n@@||b.com^$image\n@@||b.com^" false [] exBanner true := by
  have hp : ∀ r ∈ [exWord, exFreeImages, exFree], plainRule r = true := by decide +kernel
  refine blocked_word (lists_rules (plainRules_sound hp) (by simp)) (plainRules_askable hroll hp exBanner_web)
    ((applies_compared (v := true) (hp _ (by simp)) exBanner_web (by decide +kernel) (by decide +kernel) []).2 rfl) fun r hr hc ha => ?_
  simp only [List.mem_cons, List.not_mem_nil, or_false] at hr
  rcases hr with rfl | rfl
  · cases (applies_compared (v := false) (hp _ (by simp)) exBanner_web (by decide +kernel) (by decide +kernel) []).1 ha
  · obtain ⟨⟨before, after, e, h1⟩, -⟩ := hc.host (by decide +kernel)
    rcases before with _ | ⟨x, _ | ⟨y, before⟩⟩
    · injection e with e _; exact absurd (congrArg RuleText.text e) (by decide)
    · injection e with _ e; injection e with e _; exact absurd (congrArg RuleText.options e) (by decide)
    · rw [List.cons_append, List.cons_append] at e
      injection e with _ e
      injection e with e _
      subst e
      exact h1 exFreeImages (by simp) (by decide +kernel)

end AdBlock
