import Verif.Props.RuleLaws
/-
Laws about what does not matter to an answer: rules that do not apply to the request, rules for which there is an exception that reads
like them, and what the rules do not mention.
-/
namespace AdBlock
open Spec

/-! ### rules which do not apply -/

/-- The rules among which one for the host of `r` is looked for. -/
def likeHost (r x : RuleText) : Bool := decide (x.HostOnly ∧ x.exception = r.exception ∧ x.hostPart = r.hostPart)

theorem hostCounted_find {rs : List RuleText} {q : Request} {r : RuleText} :
    HostCounted rs q r ↔ (r.HostOnly → rs.find? (likeHost r) = some r ∧ (r.hostPart = q.host ∨ ch%'.' ∈ r.hostPart)) := by
  unfold HostCounted
  refine imp_congr_right fun hh => and_congr_left fun _ => ?_
  rw [List.find?_eq_some_iff_append]
  constructor
  · rintro ⟨before, after, h1, h2⟩
    exact ⟨by simp [likeHost, hh], before, after, h1, fun x hx => by unfold likeHost; rw [decide_eq_false (h2 x hx)]; rfl⟩
  · rintro ⟨-, before, after, h1, h2⟩
    exact ⟨before, after, h1, fun x hx hk => by have := h2 x hx; unfold likeHost at this; rw [decide_eq_true hk] at this; cases this⟩

theorem hostCounted_insert {before after : List RuleText} {q : Request} {r x : RuleText} (hne : x ≠ r)
    (h : r.HostOnly → ∀ y ∈ after, ¬ (y.HostOnly ∧ y.exception = r.exception ∧ y.hostPart = r.hostPart)) :
    HostCounted (before ++ r :: after) q x ↔ HostCounted (before ++ after) q x := by
  rw [hostCounted_find, hostCounted_find]
  refine imp_congr_right fun hh => and_congr_left fun _ => ?_
  rw [List.find?_append, List.find?_append, List.find?_cons]
  cases hl : likeHost x r with
  | false => rfl
  | true =>
    have hl : r.HostOnly ∧ r.exception = x.exception ∧ r.hostPart = x.hostPart := by simpa [likeHost] using hl
    have hnone : after.find? (likeHost x) = none := by
      rw [List.find?_eq_none]
      intro y hy hk
      have hk : y.HostOnly ∧ y.exception = x.exception ∧ y.hostPart = x.hostPart := by simpa [likeHost] using hk
      exact h hl.1 y hy ⟨hk.1, by rw [hk.2.1, hl.2.1], by rw [hk.2.2, hl.2.2]⟩
    rw [hnone]
    cases before.find? (likeHost x) with
    | some y => rfl
    | none =>
      simp only [Option.none_or, Option.some.injEq, reduceCtorEq, iff_false]
      exact fun h => hne h.symm

theorem gate_insert {bad : List Bytes} {before after : List RuleText} {q : Request} {r : RuleText} (h : ¬ Meddles bad r after q) (s : Bool) :
    Gate bad (before ++ r :: after) q s ↔ Gate bad (before ++ after) q s := by
  unfold Gate
  constructor
  · rintro ⟨x, hx, he, hs, dl, h1, h2, h3⟩
    have : x = r ∨ x ∈ before ++ after := by
      simp only [List.mem_append, List.mem_cons] at hx ⊢
      rcases hx with hx | rfl | hx
      · exact .inr (.inl hx)
      · exact .inl rfl
      · exact .inr (.inr hx)
    rcases this with rfl | hx
    · exact absurd (.inr ⟨hs, dl, h1, h2, h3⟩) h
    · exact ⟨x, hx, he, hs, dl, h1, h2, h3⟩
  · rintro ⟨x, hx, h⟩
    exact ⟨x, by simp only [List.mem_append, List.mem_cons] at hx ⊢; rcases hx with hx | hx <;> simp [hx], h⟩

/-- **C84**, as far as it holds: a rule which does not apply to the request makes no difference to the answer, wherever it is in the
list, unless it is one that a known defect is to do with. -/
theorem C84_rule_does_not_apply_partial {E : Env} {A B : Bytes} {before after : List RuleText} {r : RuleText} (hA : Lists E A (before ++ after))
    (hB : Lists E B (before ++ r :: after)) {tags : List Bytes} {q : Request} (hr : ¬ r.AppliesTo tags q) (hm : ¬ Meddles E.bad r after q)
    (preserve preserve' : Bool) (hq : Askable E (before ++ r :: after) q) :
    ∃ b, Answers E A preserve tags q b ∧ Answers E B preserve' tags q b := by
  have hsub : ∀ x ∈ before ++ after, x ∈ before ++ r :: after := by
    intro x hx
    simp only [List.mem_append, List.mem_cons] at hx ⊢
    rcases hx with hx | hx <;> simp [hx]
  have hcount : ∀ x, x ≠ r → (Counted E.bad (before ++ r :: after) q x ↔ Counted E.bad (before ++ after) q x) := by
    intro x hne
    rw [counted_gate, counted_gate, gate_insert hm, hostCounted_insert hne]
    intro hh y hy hk
    exact hm (.inl ⟨hh, y, hy, hk⟩)
  refine answers_same hA hB preserve preserve' (askable_subset hq hsub) hq fun s => ⟨?_, ?_⟩
  · rintro ⟨x, hx, he, hc, ha⟩
    exact ⟨x, hsub x hx, he, (hcount x fun h => hr (h ▸ ha)).2 hc, ha⟩
  · rintro ⟨x, hx, he, hc, ha⟩
    have hne : x ≠ r := fun h => hr (h ▸ ha)
    refine ⟨x, ?_, he, (hcount x hne).1 hc, ha⟩
    simp only [List.mem_append, List.mem_cons] at hx ⊢
    rcases hx with hx | hx | hx
    · exact .inl hx
    · exact absurd hx hne
    · exact .inr hx

/-! ### rules with an exception that reads like them -/

theorem asException_facts (bad : List Bytes) (r : RuleText) : ((asException r).HostOnly ↔ r.HostOnly) ∧ (asException r).hostPart = r.hostPart ∧
    (asException r).entries = r.entries ∧ (∀ dl, ByDomain bad (asException r) dl ↔ ByDomain bad r dl) ∧
    ∀ tags q, (asException r).AppliesTo tags q ↔ r.AppliesTo tags q :=
  ⟨Iff.rfl, rfl, rfl, fun _ => Iff.rfl, fun _ _ => Iff.rfl⟩

/-- **C85**, as far as it holds: if the exceptions of a list read like its other rules, in the same order, nothing is blocked. -/
theorem C85_exceptions_undo_partial {E : Env} {A : Bytes} {rs : List RuleText} (hA : Lists E A rs)
    (h : rs.filter (fun r => r.exception) = (rs.filter fun r => !r.exception).map asException) (preserve : Bool) (tags : List Bytes) {q : Request}
    (hq : Askable E rs q) : Answers E A preserve tags q false := by
  have hto : ∀ r ∈ rs, r.exception = false → asException r ∈ rs := by
    intro r hr he
    have : asException r ∈ rs.filter fun r => r.exception := by
      rw [h]
      exact List.mem_map.2 ⟨r, List.mem_filter.2 ⟨hr, by simp [he]⟩, rfl⟩
    exact (List.mem_filter.1 this).1
  have hof : ∀ r ∈ rs, r.exception = true → ∃ x ∈ rs, x.exception = false ∧ asException x = r := by
    intro r hr he
    have : r ∈ (rs.filter fun r => !r.exception).map asException := by
      rw [← h]
      exact List.mem_filter.2 ⟨hr, he⟩
    obtain ⟨x, hx, hxr⟩ := List.mem_map.1 this
    obtain ⟨h1, h2⟩ := List.mem_filter.1 hx
    exact ⟨x, h1, by simpa using h2, hxr⟩
  have hfind : ∀ r, r.exception = false → rs.find? (likeHost r) = some r → rs.find? (likeHost (asException r)) = some (asException r) := by
    intro r he hf
    have e1 : ∀ s : Bool, ∀ x : RuleText, x.exception = s → rs.find? (likeHost x) = (rs.filter fun y => y.exception == s).find? (likeHost x) := by
      intro s x hx
      rw [List.find?_filter]
      refine find?_congr_mem fun y _ => ?_
      by_cases hy : y.exception = s
      · simp [hy]
      · have : likeHost x y = false := by simp [likeHost, hx, hy]
        simp [this]
    rw [e1 false r he] at hf
    rw [e1 true (asException r) rfl]
    have e2 : (rs.filter fun y => y.exception == true) = (rs.filter fun y => y.exception == false).map asException := by
      simpa using h
    rw [e2, List.find?_map]
    have e3 : (rs.filter fun y => y.exception == false).find? (likeHost (asException r) ∘ asException) =
        (rs.filter fun y => y.exception == false).find? (likeHost r) := by
      refine find?_congr_mem fun y hy => ?_
      have hy : y.exception = false := by simpa using (List.mem_filter.1 hy).2
      unfold likeHost
      simp only [Function.comp_apply, (asException_facts [] _).1, (asException_facts [] _).2.1, he, hy]
      simp [asException]
    rw [e3, hf]
    rfl
  have hgate : Gate E.bad rs q true → Gate E.bad rs q false := by
    rintro ⟨r, hr, he, hs, dl, h1, h2, h3⟩
    obtain ⟨x, hx, hxe, rfl⟩ := hof r hr he
    exact ⟨x, hx, hxe, hs, dl, h1, h2, h3⟩
  obtain ⟨b, h1, h2⟩ := answers_iff hA preserve tags hq
  cases b with
  | false => exact h1
  | true =>
    exfalso
    obtain ⟨⟨r, hr, he, hc, ha⟩, hno⟩ := h2.1 rfl
    refine hno ⟨asException r, hto r hr he, rfl, ?_, ha⟩
    rw [counted_gate] at hc ⊢
    refine ⟨?_, hc.2.1, fun hd hg => ?_⟩
    · rw [hostCounted_find] at hc ⊢
      intro hh
      exact ⟨hfind r he (hc.1 hh).1, (hc.1 hh).2⟩
    · exact hc.2.2 hd (by rw [he]; exact hgate hg)

/-! ### what the rules do not mention -/

theorem anyPage_allowed {r : RuleText} (h : AnyPage r) (q : Request) : r.PageAllowed q :=
  fun _ _ => ⟨fun hs => absurd hs h.1, fun hs => absurd hs h.2.1, fun dl hd => by rw [h.2.2] at hd; cases hd⟩

/-- Two requests which differ in their page and type, to which the same rules apply. -/
theorem answers_requests {E : Env} {A : Bytes} {rs : List RuleText} (hA : Lists E A rs) {q q' : Request} (hurl : q'.url = q.url) (hhost : q'.host = q.host)
    (hd : ∀ r ∈ rs, q'.domain = q.domain ∨ r.value bs%"domain=" = none) (hall : ∀ r ∈ rs, (r.TypeAllowed q' ∧ r.PageAllowed q' ↔ r.TypeAllowed q ∧ r.PageAllowed q))
    (hw : q'.Web) (preserve preserve' : Bool) (tags : List Bytes) (hq : Askable E rs q) :
    ∃ b, Answers E A preserve tags q b ∧ Answers E A preserve' tags q' b := by
  have hfit : ∀ r : RuleText, r.AddressFits q' ↔ r.AddressFits q := by
    intro r
    unfold RuleText.AddressFits
    rw [hurl, hhost]
  have happ : ∀ r ∈ rs, (r.AppliesTo tags q' ↔ r.AppliesTo tags q) := by
    intro r hr
    unfold RuleText.AppliesTo
    rw [hfit]
    constructor
    · rintro ⟨h1, h2, h3, h4⟩
      obtain ⟨h2, h3⟩ := (hall r hr).1 ⟨h2, h3⟩
      exact ⟨h1, h2, h3, h4⟩
    · rintro ⟨h1, h2, h3, h4⟩
      obtain ⟨h2, h3⟩ := (hall r hr).2 ⟨h2, h3⟩
      exact ⟨h1, h2, h3, h4⟩
  have hq' : Askable E rs q' := by
    refine ⟨hw, ⟨fun r hr hp => hq.safe.inBounds r hr ?_⟩, fun hn r hr dl hdl => ?_, by rw [hurl]; exact hq.rolls⟩
    · unfold RuleText.ReadsPast at hp ⊢
      rw [hurl, hhost] at hp
      obtain ⟨h1, h2, h3, h4⟩ := hp
      obtain ⟨h2, h3⟩ := (hall r hr).1 ⟨h2, h3⟩
      exact ⟨h1, h2, h3, h4⟩
    · rcases hd r hr with h | h
      · exact hq.empty (by rw [← h, hn]) r hr dl hdl
      · exact absurd (h.symm.trans hdl.1) (by simp)
  have hgate : ∀ s, Gate E.bad rs q' s ↔ Gate E.bad rs q s := by
    intro s
    unfold Gate
    refine exists_congr fun r => and_congr_right fun hr => and_congr_right fun _ => and_congr_right fun _ => exists_congr fun dl =>
      and_congr_right fun hdl => and_congr_right fun _ => ?_
    rcases hd r hr with h | h
    · rw [h]
    · exact absurd (h.symm.trans hdl.1) (by simp)
  have hcount : ∀ r ∈ rs, (Counted E.bad rs q' r ↔ Counted E.bad rs q r) := by
    intro r hr
    rw [counted_gate, counted_gate, hgate]
    have h1 : HostCounted rs q' r ↔ HostCounted rs q r := by unfold HostCounted; rw [hhost]
    rw [h1]
    refine and_congr_right fun _ => and_congr ⟨?_, ?_⟩ Iff.rfl
    all_goals
      rintro h ⟨dl, hdl, hn⟩
      rcases hd r hr with h' | h'
      · have := h ⟨dl, hdl, hn⟩
        simpa only [h'] using this
      · exact absurd (h'.symm.trans hdl.1) (by simp)
  obtain ⟨b, h1, h2⟩ := answers_iff hA preserve tags hq
  obtain ⟨b', h3, h4⟩ := answers_iff hA preserve' tags hq'
  have key : ∀ s, CountedApplies E rs tags q' s ↔ CountedApplies E rs tags q s := fun s =>
    exists_congr fun r => and_congr_right fun hr => and_congr_right fun _ => and_congr (hcount r hr) (happ r hr)
  have : b' = true ↔ b = true := by
    rw [h2, h4]
    exact and_congr (key false) (not_congr (key true))
  have e : b' = b := by cases b <;> cases b' <;> simp_all
  exact ⟨b, h1, e ▸ h3⟩

/-- **C86**, as far as it holds: if no rule says anything about pages, the page of a request makes no difference, provided its
type is known or no rule says anything about types to exclude. -/
theorem C86_page_partial {E : Env} {A : Bytes} {rs : List RuleText} (hA : Lists E A rs) (h : ∀ r ∈ rs, AnyPage r) (preserve preserve' : Bool)
    (tags : List Bytes) {q : Request} (ht : q.type ≠ none ∨ ∀ r ∈ rs, r.notTypes = [] ∧ ¬ r.TakenForType) (hq : Askable E rs q) (page : Option Bytes) :
    ∃ b, Answers E A preserve tags q b ∧ Answers E A preserve' tags { q with domain := page } b := by
  refine answers_requests (q := q) (q' := { q with domain := page }) hA rfl rfl (fun r hr => .inr (h r hr).2.2) (fun r hr => ?_) ⟨hq.web.scheme, hq.web.host, hq.web.rest, hq.web.text, hq.web.type⟩ preserve
    preserve' tags hq
  refine and_congr ?_ ⟨fun _ => anyPage_allowed (h r hr) _, fun _ => anyPage_allowed (h r hr) _⟩
  unfold RuleText.TypeAllowed
  cases hty : q.type with
  | none =>
    rcases ht with ht | ht
    · exact absurd hty ht
    · simp [(ht r hr).1, (ht r hr).2]
  | some t => exact Iff.rfl

/-- **C86**: if no rule says anything about types, the type of a request makes no difference, unless it is the one of main documents. -/
theorem C86_type {E : Env} {A : Bytes} {rs : List RuleText} (hA : Lists E A rs) (h : ∀ r ∈ rs, AnyType r) (preserve preserve' : Bool)
    (tags : List Bytes) {q : Request} (hq : Askable E rs q) (type : Option (Bytes × Mask)) (hin : ∀ t, type = some t → t ∈ typeTable)
    (hdoc : ∀ t, q.type = some t ∨ type = some t → t.1 ≠ bs%"document") :
    ∃ b, Answers E A preserve tags q b ∧ Answers E A preserve' tags { q with type := type } b := by
  have hallowed : ∀ r, AnyType r → ∀ x : Request, (∀ t, x.type = some t → t.1 ≠ bs%"document") → r.TypeAllowed x := by
    intro r hr x hx
    unfold RuleText.TypeAllowed
    cases hty : x.type with
    | none => exact ⟨hr.1, fun _ => hr.2.1, fun _ => hr.2.2⟩
    | some t => exact ⟨.inr ⟨hr.1, hr.2.2⟩, by rw [hr.2.1]; simp, fun hd => absurd hd (hx t hty)⟩
  refine answers_requests (q := q) (q' := { q with type := type }) hA rfl rfl (fun r hr => .inl rfl) (fun r hr => and_congr ?_ Iff.rfl) ⟨hq.web.scheme, hq.web.host, hq.web.rest, hq.web.text, hin⟩ preserve
    preserve' tags hq
  exact ⟨fun _ => hallowed r (h r hr) q fun t ht => hdoc t (.inl ht), fun _ => hallowed r (h r hr) _ fun t ht => hdoc t (.inr ht)⟩

/-! ### counterexamples and examples -/

/-- Whether a rule applies can be seen by comparing it with the request. -/
theorem applies_compared {r : RuleText} (h : plainRule r = true) {q : Request} (hq : q.Web) {v : Bool}
    (hv : (r.filter false).matches q.url (resolveContext q.url q.context q.domain) q.domain none = .ok v) (ht : (r.filter false).tag = [])
    (tags : List Bytes) : r.AppliesTo tags q ↔ v = true := by
  rw [← acts_iff (RuleText.wellFormed (plainRule_facts h).1) false hq
    ((plainRules_askable (E := toyEnv) (fun _ => trivial) (rs := [r]) (by simpa using h) hq).safe.inBounds r (by simp))]
  unfold Acts
  rw [hv]
  simp [ht]

/-- **C84** fails for rules that consist of a host (C52): the script rule does not apply to the request for an image. -/
theorem C84_host_counterexample {E : Env} (hroll : ∀ url, E.fp.rolls url) : Answers E bs%"||ads.com^$image" false [] exAds true ∧
    Answers E bs%"||ads.com^$script\n||ads.com^$image" false [] exAds false := by
  refine ⟨answers_compared (v := true) (r := { anchor := .host, text := bs%"ads.com^", options := some bs%"image" }) hroll (by decide +kernel) rfl
    (.inr (by decide +kernel)) (by decide +kernel) (by decide +kernel) exAds_web (by decide +kernel), ?_⟩
  obtain ⟨c, o, -, -, h1, h2, h3, -⟩ := C52_counterexample E hroll
  exact ⟨c, h1, o, h2, h3⟩

/-- a rule for all pages but those of `x.com`, one for all pages but those of `y.com`, and a request of a page of `y.com` to which the first
applies -/
def exNotX : RuleText := { text := bs%"&b=", options := some bs%"domain=~x.com" }
def exNotY : RuleText := { text := bs%"&a=", options := some bs%"domain=~y.com" }
def exOnY : Request := exRequest bs%"c.com" bs%"/?&b=1" (some (bs%"image", FOImage)) (some bs%"y.com")

theorem exOnY_web : exOnY.Web :=
  ⟨by decide +kernel, ⟨by decide +kernel, by decide +kernel⟩, .inr ⟨ch%'/', bs%"?&b=1", rfl, by decide +kernel⟩, by decide +kernel, by
    intro t h; cases h; decide +kernel⟩

/-- a text of three bytes has no fingerprint -/
theorem short_not_indexable {bad : List Bytes} {r : RuleText} (h : r.text.length < 6) : ¬ r.Indexable bad := by
  rintro ⟨w, hw, hu⟩
  have h1 := hw.length_le
  have h2 := hu.1
  have : kFingerprintSize = 6 := rfl
  omega

theorem exNot_byDomain (bad : List Bytes) (e : Bool) : (∀ dl, ByDomain bad { exNotX with exception := e } dl ↔ dl = bs%"~x.com") ∧
    ∀ dl, ByDomain bad { exNotY with exception := e } dl ↔ dl = bs%"~y.com" := by
  have hx : ∀ e, ({ exNotX with exception := e } : RuleText).value bs%"domain=" = some bs%"~x.com" := by decide +kernel
  have hy : ∀ e, ({ exNotY with exception := e } : RuleText).value bs%"domain=" = some bs%"~y.com" := by decide +kernel
  constructor <;> intro dl <;> unfold ByDomain
  · rw [hx, Option.some.injEq]
    exact ⟨fun h => h.1.symm, fun h => ⟨h.symm, fun hh => (nomatch hh.1), short_not_indexable (by revert e; decide +kernel)⟩⟩
  · rw [hy, Option.some.injEq]
    exact ⟨fun h => h.1.symm, fun h => ⟨h.symm, fun hh => (nomatch hh.1), short_not_indexable (by revert e; decide +kernel)⟩⟩

/-- The rule for all pages but those of `y.com`, if it is among the rules of its kind, ... -/
theorem exGate {bad : List Bytes} {rs : List RuleText} {e : Bool} (h : { exNotY with exception := e } ∈ rs) : Gate bad rs exOnY e :=
  ⟨_, h, rfl, by
    have : ∀ e, ∀ o ∈ ({ exNotY with exception := e } : RuleText).entries, o = bs%"domain=~y.com" := by decide +kernel
    intro o ho
    rw [this e o ho]
    rintro (⟨n, hn, h2⟩ | h2 | ⟨-, h2, -⟩)
    · rw [(by decide +kernel : fullName bs%"domain=~y.com" = none)] at h2; cases h2
    · exact absurd h2 (by decide +kernel)
    · exact h2 bs%"domain=" (by simp) (by decide +kernel),
    bs%"~y.com", (exNot_byDomain bad e).2 _ |>.2 rfl, by decide +kernel, bs%"y.com", rfl, bs%"y.com", by decide +kernel, .inl rfl, .inl rfl⟩

theorem not_exGate {bad : List Bytes} {rs : List RuleText} {e : Bool}
    (h : ∀ r ∈ rs, r.exception = e → r = { exNotX with exception := e }) : ¬ Gate bad rs exOnY e := by
  rintro ⟨r, hr, he, -, dl, h3, -, d, h4, s, hs, h5⟩
  rw [h r hr he] at h3
  rw [((exNot_byDomain bad e).1 dl).1 h3] at hs
  cases h4
  rw [show negative bs%"~x.com" = [bs%"x.com"] from by decide +kernel, List.mem_singleton] at hs
  rw [hs] at h5
  rcases h5.1 with h | ⟨sub, h⟩
  · exact absurd h (by decide)
  · have hl := congrArg List.length h
    simp at hl

/-- ... makes the program ignore the other one. -/
theorem exNotX_counted {bad : List Bytes} {rs : List RuleText} {e : Bool} :
    Counted bad rs exOnY { exNotX with exception := e } ↔ ¬ Gate bad rs exOnY e := by
  rw [counted_gate]
  constructor
  · rintro ⟨-, -, h⟩
    exact h ⟨_, ((exNot_byDomain bad e).1 _).2 rfl, by decide +kernel⟩
  · intro h
    exact ⟨fun hh => (nomatch hh.1), fun _ => by simp [exOnY, exRequest], fun _ => h⟩

theorem exNotX_applies (e : Bool) (tags : List Bytes) : ({ exNotX with exception := e } : RuleText).AppliesTo tags exOnY :=
  (applies_compared (v := true) (by revert e; decide +kernel) exOnY_web (by revert e; decide +kernel) (by revert e; decide +kernel) tags).2 rfl

theorem exNotY_applies (e : Bool) (tags : List Bytes) : ¬ ({ exNotY with exception := e } : RuleText).AppliesTo tags exOnY := by
  rw [applies_compared (v := false) (by revert e; decide +kernel) exOnY_web (by revert e; decide +kernel) (by revert e; decide +kernel) tags]
  simp

/-- **C84** fails for rules which only exclude domains and have no fingerprint: `&a=$domain=~y.com` does not apply to a request of a page of
`y.com`, but makes the program ignore `&b=$domain=~x.com`. -/
theorem C84_excluding_counterexample {E : Env} (hroll : ∀ url, E.fp.rolls url) : Answers E bs%"&b=$domain=~x.com" false [] exOnY true ∧
    Answers E bs%"&b=$domain=~x.com\n&a=$domain=~y.com" false [] exOnY false := by
  have hp : ∀ r ∈ [exNotX, exNotY], plainRule r = true := by decide +kernel
  have hp1 : ∀ r ∈ [exNotX], plainRule r = true := by decide +kernel
  constructor
  · obtain ⟨b, h1, h2⟩ := answers_iff (lists_rules (E := E) (plainRules_sound hp1) (by simp)) false [] (plainRules_askable hroll hp1 exOnY_web)
    have : b = true := by
      rw [h2]
      refine ⟨⟨exNotX, by simp, rfl, exNotX_counted.2 ?_, exNotX_applies false []⟩, ?_⟩
      · exact not_exGate (e := false) (fun r hr _ => List.mem_singleton.1 hr)
      · rintro ⟨r, hr, he, -⟩
        rw [List.mem_singleton.1 hr] at he
        cases he
    exact this ▸ h1
  · obtain ⟨b, h1, h2⟩ := answers_iff (lists_rules (E := E) (plainRules_sound hp) (by simp)) false [] (plainRules_askable hroll hp exOnY_web)
    cases b with
    | false => exact h1
    | true =>
      exfalso
      obtain ⟨⟨r, hr, -, hc, ha⟩, -⟩ := h2.1 rfl
      simp only [List.mem_cons, List.not_mem_nil, or_false] at hr
      rcases hr with rfl | rfl
      · exact exNotX_counted.1 hc (exGate (e := false) (List.mem_cons_of_mem _ List.mem_cons_self))
      · exact exNotY_applies false [] ha

/-- **C84**, an example: a rule for scripts between the rule that blocks the image and another one. -/
example {E : Env} (hroll : ∀ url, E.fp.rolls url) : ∃ b, Answers E bs%"||ads.com^$image\n-banner" false [] exAds b ∧
    Answers E bs%"||ads.com^$image\n-pixel$script\n-banner" true [] exAds b :=
  C84_rule_does_not_apply_partial (r := { text := bs%"-pixel", options := some bs%"script" })
    (before := [{ anchor := .host, text := bs%"ads.com^", options := some bs%"image" }]) (after := [{ text := bs%"-banner" }])
    (lists_rules (plainRules_sound (by decide +kernel)) (by simp)) (lists_rules (plainRules_sound (by decide +kernel)) (by simp))
    (by rw [applies_compared (v := false) (by decide +kernel) exAds_web (by decide +kernel) (by decide +kernel)]; simp)
    (by
      rintro (h | ⟨-, dl, h, -⟩)
      · exact nomatch h.1.1
      · exact absurd (h.1.symm.trans (by decide +kernel : _ = none)) (by simp))
    false true (plainRules_askable hroll (by decide +kernel) exAds_web)

/-- a rule that consists of a host, and two exceptions from that host -/
def exAdsRules (types : List Bytes) : List RuleText :=
  { anchor := .host, text := bs%"ads.com^", options := some bs%"image" } ::
    types.map fun t => { exception := true, anchor := .host, text := bs%"ads.com^", options := some t }

/-- **C85** fails for exceptions that consist of a host: of several only the first is kept. -/
theorem C85_host_counterexample {E : Env} (hroll : ∀ url, E.fp.rolls url) :
    Answers E bs%"||ads.com^$image\n@@||ads.com^$script\n@@||ads.com^$image" false [] exAds true := by
  have hp : ∀ r ∈ exAdsRules [bs%"script", bs%"image"], plainRule r = true := by decide +kernel
  obtain ⟨b, h1, h2⟩ := answers_iff (lists_rules (E := E) (plainRules_sound hp) (by simp [exAdsRules])) false [] (plainRules_askable hroll hp exAds_web)
  have : b = true := by
    rw [h2]
    refine ⟨⟨_, List.mem_cons_self, rfl, ?_, (applies_compared (v := true) (by decide +kernel) exAds_web (by decide +kernel) (by decide +kernel) []).2 rfl⟩, ?_⟩
    · rw [counted_gate, hostCounted_find]
      exact ⟨fun _ => ⟨rfl, .inl (by decide +kernel)⟩, fun ⟨dl, h, _⟩ => absurd (h.1.symm.trans (by decide +kernel : _ = none)) (by simp),
        fun ⟨dl, h, _⟩ => absurd (h.1.symm.trans (by decide +kernel : _ = none)) (by simp)⟩
    · rintro ⟨r, hr, he, hc, ha⟩
      simp only [exAdsRules, List.map_cons, List.map_nil, List.mem_cons, List.not_mem_nil, or_false] at hr
      rcases hr with rfl | rfl | rfl
      · cases he
      · rw [applies_compared (v := false) (by decide +kernel) exAds_web (by decide +kernel) (by decide +kernel)] at ha
        cases ha
      · rw [counted_gate, hostCounted_find] at hc
        have h3 := (hc.1 (by decide +kernel)).1
        have h4 : (exAdsRules [bs%"script", bs%"image"]).find?
            (likeHost { exception := true, anchor := .host, text := bs%"ads.com^", options := some bs%"image" }) =
            some { exception := true, anchor := .host, text := bs%"ads.com^", options := some bs%"script" } := rfl
        rw [h4, Option.some.injEq] at h3
        exact absurd (congrArg RuleText.options h3) (by decide)
  exact this ▸ h1

/-- **C85** fails for exceptions which only exclude domains: another such exception makes the program ignore them. -/
theorem C85_excluding_counterexample {E : Env} (hroll : ∀ url, E.fp.rolls url) :
    Answers E bs%"&b=$domain=~x.com\n@@&b=$domain=~x.com\n@@&a=$domain=~y.com" false [] exOnY true := by
  have hp : ∀ r ∈ [exNotX, { exNotX with exception := true }, { exNotY with exception := true }], plainRule r = true := by decide +kernel
  obtain ⟨b, h1, h2⟩ := answers_iff (lists_rules (E := E) (plainRules_sound hp) (by simp)) false [] (plainRules_askable hroll hp exOnY_web)
  have : b = true := by
    rw [h2]
    refine ⟨⟨exNotX, by simp, rfl, exNotX_counted.2 ?_, exNotX_applies false []⟩, ?_⟩
    · refine not_exGate (e := false) (fun r hr he => ?_)
      simp only [List.mem_cons, List.not_mem_nil, or_false] at hr
      rcases hr with rfl | rfl | rfl
      · rfl
      · cases he
      · cases he
    · rintro ⟨r, hr, he, hc, ha⟩
      simp only [List.mem_cons, List.not_mem_nil, or_false] at hr
      rcases hr with rfl | rfl | rfl
      · cases he
      · exact exNotX_counted.1 hc (exGate (e := true) (by simp))
      · exact exNotY_applies true [] ha
  exact this ▸ h1

/-- **C86** fails for requests of unknown type: a rule for all types but one is only looked at if the page is known. -/
theorem C86_unknown_counterexample {E : Env} (hroll : ∀ url, E.fp.rolls url) :
    Answers E bs%"banner$~script" false [] { exBanner with type := none, domain := none } false ∧
    Answers E bs%"banner$~script" false [] { exBanner with type := none, domain := some bs%"b.com" } true := by
  have hw : ∀ d, ({ exBanner with type := none, domain := d } : Request).Web := fun d =>
    ⟨exBanner_web.scheme, exBanner_web.host, exBanner_web.rest, exBanner_web.text, by simp⟩
  exact ⟨answers_compared (v := false) (r := { text := bs%"banner", options := some bs%"~script" }) hroll (by decide +kernel) rfl
      (.inl (by decide +kernel)) (by decide +kernel) (by decide +kernel) (hw none) (by decide +kernel),
    answers_compared (v := true) (r := { text := bs%"banner", options := some bs%"~script" }) hroll (by decide +kernel) rfl
      (.inl (by decide +kernel)) (by decide +kernel) (by decide +kernel) (hw _) (by decide +kernel)⟩

/-- **C85**, an example: two rules, each repeated as an exception. -/
example {E : Env} (hroll : ∀ url, E.fp.rolls url) :
    Answers E bs%"||ads.com^$image\n@@||ads.com^$image\n-banner\n@@-banner" false [] exAds false := by
  have hp : ∀ r ∈ [{ anchor := .host, text := bs%"ads.com^", options := some bs%"image" },
      { exception := true, anchor := .host, text := bs%"ads.com^", options := some bs%"image" }, { text := bs%"-banner" },
      ({ exception := true, text := bs%"-banner" } : RuleText)], plainRule r = true := by decide +kernel
  exact C85_exceptions_undo_partial (lists_rules (plainRules_sound hp) (by simp)) rfl false [] (plainRules_askable hroll hp exAds_web)

/-- **C86**, examples: neither the page nor the type matters to these rules. -/
example {E : Env} (hroll : ∀ url, E.fp.rolls url) (page : Option Bytes) (t : Bytes × Mask) (ht : t ∈ typeTable) (hdoc : t.1 ≠ bs%"document") :
    (∃ b, Answers E bs%"||ads.com^\n@@-banner" false [] exAds b ∧ Answers E bs%"||ads.com^\n@@-banner" false [] { exAds with domain := page } b) ∧
    ∃ b, Answers E bs%"||ads.com^\n@@-banner" false [] exAds b ∧ Answers E bs%"||ads.com^\n@@-banner" false [] { exAds with type := some t } b := by
  have hp : ∀ r ∈ [{ anchor := .host, text := bs%"ads.com^" }, ({ exception := true, text := bs%"-banner" } : RuleText)],
      plainRule r = true ∧ r.options = none := by decide +kernel
  have hl := lists_rules (E := E) (plainRules_sound fun r hr => (hp r hr).1) (by simp)
  have hq := plainRules_askable hroll (fun r hr => (hp r hr).1) exAds_web
  have hn : ∀ r ∈ [{ anchor := .host, text := bs%"ads.com^" }, ({ exception := true, text := bs%"-banner" } : RuleText)], r.entries = [] := by
    intro r hr
    unfold RuleText.entries
    rw [(hp r hr).2]
  refine ⟨C86_page_partial hl (fun r hr => ⟨?_, ?_, ?_⟩) false false [] (.inl (by simp [exAds])) hq page,
    C86_type hl (fun r hr => ⟨?_, ?_, ?_⟩) false false [] hq (some t) (by rintro _ ⟨⟩; exact ht) ?_⟩
  · simp [RuleText.Says, hn r hr]
  · simp [RuleText.Denies, hn r hr]
  · simp [RuleText.value, hn r hr]
  · simp [RuleText.types, RuleText.Says, hn r hr]
  · simp [RuleText.notTypes, RuleText.Denies, hn r hr]
  · simp [RuleText.TakenForType, RuleText.Says, hn r hr]
  · rintro t' (h | h)
    · cases h
      decide +kernel
    · cases h
      exact hdoc

end AdBlock
