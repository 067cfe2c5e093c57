import Verif.Props.Locality
/-
Enabling tags (C101), and announcing the types of requests (C102).
-/
namespace AdBlock
open Spec

theorem applies_tags {r : RuleText} {tags tags' : List Bytes} (h : ∀ t ∈ tags, t ∈ tags') {q : Request} (ha : r.AppliesTo tags q) : r.AppliesTo tags' q :=
  ⟨ha.1, ha.2.1, ha.2.2.1, fun t ht => (ha.2.2.2.1 t ht).imp_right (h t), ha.2.2.2.2⟩

theorem applies_untagged {r : RuleText} (h : Untagged r) {tags tags' : List Bytes} {q : Request} (ha : r.AppliesTo tags q) : r.AppliesTo tags' q :=
  ⟨ha.1, ha.2.1, ha.2.2.1, fun t ht => .inl (h t ht), ha.2.2.2.2⟩

theorem answers_mono {E : Env} {A : Bytes} {rs : List RuleText} (hA : Lists E A rs) (preserve : Bool) {tags tags' : List Bytes} {q q' : Request}
    (hq : Askable E rs q) (hq' : Askable E rs q')
    (more : ∀ r ∈ rs, r.exception = false → Counted E.bad rs q r → r.AppliesTo tags q → Counted E.bad rs q' r ∧ r.AppliesTo tags' q')
    (less : ∀ r ∈ rs, r.exception = true → Counted E.bad rs q' r → r.AppliesTo tags' q' → Counted E.bad rs q r ∧ r.AppliesTo tags q)
    (h : Answers E A preserve tags q true) : Answers E A preserve tags' q' true := by
  obtain ⟨b, h1, h2⟩ := answers_iff hA preserve tags hq
  obtain ⟨b', h3, h4⟩ := answers_iff hA preserve tags' hq'
  obtain ⟨⟨r, hr, he, hc, ha⟩, hno⟩ := h2.1 (answers_unique h1 h)
  have : b' = true := h4.2 ⟨⟨r, hr, he, more r hr he hc ha⟩, fun ⟨e, hr, he, hc, ha⟩ => hno ⟨e, hr, he, less e hr he hc ha⟩⟩
  exact this ▸ h3

/-- **C101**: if the exceptions have no tags, what is blocked with some tags is also blocked if more are enabled … -/
theorem C101_more_tags {E : Env} {A : Bytes} {rs : List RuleText} (hA : Lists E A rs) (hu : ∀ r ∈ rs, r.exception = true → Untagged r) (preserve : Bool)
    {tags tags' : List Bytes} (hsub : ∀ t ∈ tags, t ∈ tags') {q : Request} (hq : Askable E rs q) (h : Answers E A preserve tags q true) :
    Answers E A preserve tags' q true :=
  answers_mono hA preserve hq hq (fun _ _ _ hc ha => ⟨hc, applies_tags hsub ha⟩) (fun r hr he hc ha => ⟨hc, applies_untagged (hu r hr he) ha⟩) h

/-- … and if the blocking rules have no tags, what is blocked with some tags is also blocked if fewer are enabled. -/
theorem C101_fewer_tags {E : Env} {A : Bytes} {rs : List RuleText} (hA : Lists E A rs) (hu : ∀ r ∈ rs, r.exception = false → Untagged r) (preserve : Bool)
    {tags tags' : List Bytes} (hsub : ∀ t ∈ tags, t ∈ tags') {q : Request} (hq : Askable E rs q) (h : Answers E A preserve tags' q true) :
    Answers E A preserve tags q true :=
  answers_mono hA preserve hq hq (fun r hr he hc ha => ⟨hc, applies_untagged (hu r hr he) ha⟩) (fun _ _ _ hc ha => ⟨hc, applies_tags hsub ha⟩) h

/-- **C101**: tags that no rule has make no difference. -/
theorem C101_other_tags {E : Env} {A : Bytes} {rs : List RuleText} (hA : Lists E A rs) (preserve : Bool) {tags tags' : List Bytes}
    (hu : ∀ r ∈ rs, ∀ t, r.value bs%"tag=" = some t → t ≠ [] → (t ∈ tags' ↔ t ∈ tags)) {q : Request} (hq : Askable E rs q) :
    ∃ b, Answers E A preserve tags q b ∧ Answers E A preserve tags' q b := by
  refine answers_same hA hA preserve preserve hq hq fun s => ?_
  have key : ∀ r ∈ rs, r.TagEnabled tags ↔ r.TagEnabled tags' := fun r hr => by
    unfold RuleText.TagEnabled
    refine forall_congr' fun t => imp_congr_right fun ht => ?_
    by_cases h0 : t = []
    · simp [h0]
    · rw [hu r hr t ht h0]
  unfold CountedApplies
  refine exists_congr fun r => and_congr_right fun hr => and_congr_right fun _ => and_congr_right fun _ => ?_
  unfold RuleText.AppliesTo
  rw [key r hr]

/-- **C102** for lists without excluded types (and without `collapse` and `donottrack`, see C53): what a list without exceptions blocks if the type
of the request is not announced, it also blocks if it is, main documents aside. -/
theorem C102_type_partial {E : Env} {A : Bytes} {rs : List RuleText} (hA : Lists E A rs) (hex : ∀ r ∈ rs, r.exception = false)
    (hnot : ∀ r ∈ rs, r.notTypes = [] ∧ ¬ r.TakenForType) (preserve : Bool) (tags : List Bytes) {q : Request} (hn : q.type = none) {t : Bytes × Mask}
    (hdoc : t.1 ≠ bs%"document") (hq : Askable E rs q) (hq' : Askable E rs { q with type := some t }) (h : Answers E A preserve tags q true) :
    Answers E A preserve tags { q with type := some t } true := by
  refine answers_mono (q := q) (q' := { q with type := some t }) hA preserve hq hq' (fun r hr _ hc ha => ⟨⟨hc.host, hc.page, hc.excluded⟩, ?_⟩) (fun r hr he => ?_) h
  · obtain ⟨h1, h2, h3⟩ := ha
    refine ⟨h1, ?_, h3⟩
    unfold RuleText.TypeAllowed at h2 ⊢
    rw [hn] at h2
    simp only at h2 ⊢
    exact ⟨.inr ⟨h2.1, (hnot r hr).2⟩, by rw [(hnot r hr).1]; simp, fun h => absurd h hdoc⟩
  · rw [hex r hr] at he; cases he

/-- **C102** for lists in which all rules with `domain=` consist of a host or can be indexed: what a list without exceptions blocks on some page, it also
blocks if the page is not announced, provided that the type of the request is. -/
theorem C102_page_partial {E : Env} {A : Bytes} {rs : List RuleText} (hA : Lists E A rs) (hex : ∀ r ∈ rs, r.exception = false)
    (hdom : ∀ r ∈ rs, ∀ dl, ¬ ByDomain E.bad r dl) (preserve : Bool) (tags : List Bytes) {q : Request} {t : Bytes × Mask} (ht : q.type = some t)
    (hq : Askable E rs q) (hq' : Askable E rs { q with domain := none }) (h : Answers E A preserve tags q true) :
    Answers E A preserve tags { q with domain := none } true := by
  refine answers_mono (q := q) (q' := { q with domain := none }) hA preserve hq hq' (fun r hr _ hc ha =>
    ⟨⟨hc.host, fun dl h => absurd h (hdom r hr dl), fun dl h => absurd h (hdom r hr dl)⟩, ?_⟩) (fun r hr he => ?_) h
  · obtain ⟨h1, h2, h3, h4⟩ := ha
    refine ⟨h1, ?_, fun d hd => (by cases hd), h4⟩
    unfold RuleText.TypeAllowed at h2 ⊢
    rw [ht] at h2
    simp only [ht]
    exact h2
  · rw [hex r hr] at he; cases he

/-! ### Examples -/

private def exTagged : RuleText := { text := bs%"banner", options := some bs%"tag=social" }

/-- `banner$tag=social` blocks only with the tag; other tags make no difference. -/
example (E : Env) (hroll : ∀ url, E.fp.rolls url) : Answers E bs%"banner$tag=social" false [] exBanner false ∧
    Answers E bs%"banner$tag=social" false [bs%"social"] exBanner true ∧ Answers E bs%"banner$tag=social" false [bs%"social", bs%"news"] exBanner true := by
  have hp : plainRule exTagged = true := by decide +kernel
  have hl : Lists E bs%"banner$tag=social" [exTagged] := lists_rules (rs := [exTagged]) (plainRules_sound (by simpa using hp)) (by simp)
  have hq := plainRules_askable (E := E) (rs := [exTagged]) hroll (by simpa using hp) exBanner_web
  have key : ∀ tags, ∃ b, Answers E bs%"banner$tag=social" false tags exBanner b ∧ (b = true ↔ exTagged.AppliesTo tags exBanner) := fun tags =>
    answers_single hroll hp rfl (.inl (by decide +kernel)) (by decide +kernel) exBanner_web false tags
  have hv : exTagged.value bs%"tag=" = some bs%"social" := by decide +kernel
  have h1 : Answers E bs%"banner$tag=social" false [bs%"social"] exBanner true := by
    obtain ⟨b, k1, k2⟩ := key [bs%"social"]
    have : b = true := by
      rw [k2, ← acts_iff (RuleText.wellFormed (plainRule_facts hp).1) false exBanner_web (hq.safe.inBounds _ (by simp))]
      exact ⟨by decide +kernel, .inr (by decide +kernel)⟩
    exact this ▸ k1
  refine ⟨?_, h1, C101_more_tags hl (fun r hr he => by rw [List.mem_singleton.1 hr] at he; cases he) false (by simp) hq h1⟩
  obtain ⟨b, k1, k2⟩ := key []
  have : b = false := by
    rw [← Bool.not_eq_true, k2]
    intro h
    rcases h.2.2.2.1 _ hv with h | h <;> simp at h
  exact this ▸ k1

/-- A request of unknown type is blocked by `banner`, so a script is. -/
example (E : Env) (hroll : ∀ url, E.fp.rolls url) : Answers E bs%"banner" false [] exBanner true := by
  have hp : ∀ r ∈ [({ text := bs%"banner" } : RuleText)], plainRule r = true := by decide +kernel
  have hw : ({ exBanner with type := none } : Request).Web := ⟨exBanner_web.scheme, exBanner_web.host, exBanner_web.rest, exBanner_web.text, by simp⟩
  exact C102_type_partial (q := { exBanner with type := none }) (t := (bs%"script", FOScript)) (lists_rules (plainRules_sound hp) (by simp)) (by simp)
    (fun r hr => by rw [List.mem_singleton.1 hr]; exact ⟨by decide +kernel, by unfold RuleText.TakenForType; decide +kernel⟩) false [] rfl (by decide)
    (plainRules_askable hroll hp hw) (plainRules_askable hroll hp exBanner_web)
    (answers_compared (v := true) (r := { text := bs%"banner" }) hroll (hp _ (by simp)) rfl (.inl (by decide +kernel)) (by decide +kernel)
      (by decide +kernel) hw (by decide +kernel))

/-- **C102** fails for rules that exclude types, if the page is known: a request of unknown type is blocked by `banner$~script`, although it may be for a
script, which isn't blocked. -/
theorem C102_type_counterexample {E : Env} (hroll : ∀ url, E.fp.rolls url) :
    Answers E bs%"banner$~script" false [] { exBanner with type := none, domain := some bs%"b.com" } true ∧
    Answers E bs%"banner$~script" false [] { exBanner with domain := some bs%"b.com" } false :=
  ⟨(C86_unknown_counterexample hroll).2,
    answers_compared (v := false) (r := { text := bs%"banner", options := some bs%"~script" }) hroll (by decide +kernel) rfl
      (.inl (by decide +kernel)) (by decide +kernel) (by decide +kernel) (q := { exBanner with domain := some bs%"b.com" })
      ⟨exBanner_web.scheme, exBanner_web.host, exBanner_web.rest, exBanner_web.text, exBanner_web.type⟩ (by decide +kernel)⟩

private def exOnX : RuleText := { text := bs%"&b=", options := some bs%"domain=x.com" }

/-- **C102** fails for rules with a list of domains that have no fingerprint: on the page `x.com` the request is blocked by `&b=$domain=x.com`, but not if the page
is not announced (while `banner$domain=x.com` applies then). -/
theorem C102_page_counterexample {E : Env} (hroll : ∀ url, E.fp.rolls url) :
    Answers E bs%"&b=$domain=x.com" false [] { exOnY with domain := some bs%"x.com" } true ∧
    Answers E bs%"&b=$domain=x.com" false [] { exOnY with domain := none } false := by
  have hp : ∀ r ∈ [exOnX], plainRule r = true := by decide +kernel
  have hl : Lists E bs%"&b=$domain=x.com" [exOnX] := lists_rules (plainRules_sound hp) (by simp)
  have hw : ∀ d, ({ exOnY with domain := d } : Request).Web := fun d => ⟨exOnY_web.scheme, exOnY_web.host, exOnY_web.rest, exOnY_web.text, exOnY_web.type⟩
  have hv : exOnX.value bs%"domain=" = some bs%"x.com" := by decide +kernel
  have hb : ByDomain E.bad exOnX bs%"x.com" := ⟨hv, by decide +kernel, short_not_indexable (by decide +kernel)⟩
  constructor
  · obtain ⟨b, h1, h2⟩ := answers_iff hl false [] (plainRules_askable hroll hp (hw (some bs%"x.com")))
    have : b = true := by
      rw [h2]
      refine ⟨⟨exOnX, by simp, rfl, ⟨fun h => absurd h hb.2.1, fun _ _ _ => by simp, fun dl h hd => ?_⟩,
        (applies_compared (v := true) (hp _ (by simp)) (hw _) (by decide +kernel) (by decide +kernel) []).2 rfl⟩, ?_⟩
      · have := h.1
        rw [hv] at this
        cases this
        exact absurd hd (by decide +kernel)
      · rintro ⟨r, hr, he, -⟩
        rw [List.mem_singleton.1 hr] at he
        cases he
    exact this ▸ h1
  · obtain ⟨b, h1, h2⟩ := answers_iff hl false [] (plainRules_askable hroll hp (hw none))
    have : b = false := by
      rw [← Bool.not_eq_true, h2]
      rintro ⟨⟨r, hr, -, hc, -⟩, -⟩
      rw [List.mem_singleton.1 hr] at hc
      exact hc.page _ hb (by decide +kernel) rfl
    exact this ▸ h1

/-- A rule that consists of a host: on the page it is for, and without a page. -/
example (E : Env) (hroll : ∀ url, E.fp.rolls url) : Answers E bs%"||ads.com^$domain=news.com" false [] { exAds with domain := none } true := by
  have hp : ∀ r ∈ [({ anchor := .host, text := bs%"ads.com^", options := some bs%"domain=news.com" } : RuleText)], plainRule r = true := by decide +kernel
  have hh : ∀ r ∈ [({ anchor := .host, text := bs%"ads.com^", options := some bs%"domain=news.com" } : RuleText)], r.HostOnly := by decide +kernel
  have hw : ∀ d, ({ exAds with domain := d } : Request).Web := fun d => ⟨exAds_web.scheme, exAds_web.host, exAds_web.rest, exAds_web.text, exAds_web.type⟩
  have hl := lists_rules (E := E) (plainRules_sound hp) (by simp)
  have hq := fun d => plainRules_askable (E := E) hroll hp (hw d)
  refine C102_page_partial (q := { exAds with domain := some bs%"news.com" }) (t := (bs%"image", FOImage)) hl (by simp)
    (fun r hr dl h => h.2.1 (hh r hr)) false [] rfl (hq _) (hq none) ?_
  obtain ⟨b, h1, h2⟩ := answers_iff hl false [] (hq (some bs%"news.com"))
  have : b = true := by
    rw [h2]
    refine ⟨⟨_, List.mem_singleton.2 rfl, rfl, ⟨fun _ => ⟨⟨[], [], rfl, by simp⟩, .inr (by decide +kernel)⟩, fun dl h => absurd (hh _ (by simp)) h.2.1,
      fun dl h => absurd (hh _ (by simp)) h.2.1⟩,
      (applies_compared (v := true) (hp _ (by simp)) (hw _) (by decide +kernel) (by decide +kernel) []).2 rfl⟩, ?_⟩
    rintro ⟨r, hr, he, -⟩
    rw [List.mem_singleton.1 hr] at he
    cases he
  exact this ▸ h1

end AdBlock
