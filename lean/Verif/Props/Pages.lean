import Verif.Props.Scheme
/-
Pages of subdomains.
-/
namespace AdBlock
open Spec

theorem admitted_subdomain {dl d d' : Bytes} (h : ∀ s ∈ positive dl ++ negative dl, SameSite s d' ↔ SameSite s d) :
    DomainAdmitted dl d' ↔ DomainAdmitted dl d := by
  have hp : ∀ s ∈ positive dl, Covers s d' ↔ Covers s d := fun s hs => and_congr_left fun _ => h s (List.mem_append_left _ hs)
  have hn : ∀ s ∈ negative dl, Covers s d' ↔ Covers s d := fun s hs => and_congr_left fun _ => h s (List.mem_append_right _ hs)
  unfold DomainAdmitted
  refine or_congr (exists_congr fun s => and_congr_right fun hs => and_congr (hp s hs) ?_) (and_congr_right fun _ => ?_)
  · exact forall_congr' fun s' => forall_congr' fun hs' => by rw [hn s' hs']
  · exact forall_congr' fun s' => forall_congr' fun hs' => by rw [hn s' hs']

/-- **C95**, as far as it holds: requests of a page of a subdomain are answered like those of a page of the domain, which has a dot, if no rule
lists or excludes the subdomain, and either no rule has an option about the party, or both pages have the same relation to the host. -/
theorem C95_subdomain_page_partial {E : Env} {A : Bytes} {rs : List RuleText} (hA : Lists E A rs) {q : Request} {d sub : Bytes} (hd : ch%'.' ∈ d)
    (hm : ∀ r ∈ rs, ∀ dl, r.value bs%"domain=" = some dl → ∀ s ∈ positive dl ++ negative dl, SameSite s (sub ++ ch%'.' :: d) → SameSite s d)
    (hp : (∀ r ∈ rs, ¬ r.Says bs%"third-party" ∧ ¬ r.Denies bs%"third-party") ∨ (SameSite d q.host ↔ SameSite (sub ++ ch%'.' :: d) q.host))
    (preserve : Bool) (tags : List Bytes) (hq : Askable E rs { q with domain := some d })
    (hq' : Askable E rs { q with domain := some (sub ++ ch%'.' :: d) }) :
    ∃ b, Answers E A preserve tags { q with domain := some d } b ∧ Answers E A preserve tags { q with domain := some (sub ++ ch%'.' :: d) } b := by
  obtain ⟨b, h1, h2⟩ := answers_iff hA preserve tags hq
  obtain ⟨b', h3, h4⟩ := answers_iff hA preserve tags hq'
  have hsite : ∀ r ∈ rs, ∀ dl, r.value bs%"domain=" = some dl → ∀ s ∈ positive dl ++ negative dl, SameSite s (sub ++ ch%'.' :: d) ↔ SameSite s d :=
    fun r hr dl hdl s hs => ⟨hm r hr dl hdl s hs, fun h => sameSite_trans h (.inr ⟨sub, rfl⟩)⟩
  have hgate : ∀ e, Gate E.bad rs { q with domain := some d } e ↔ Gate E.bad rs { q with domain := some (sub ++ ch%'.' :: d) } e := by
    intro e
    constructor
    · rintro ⟨r, hr, he, hs, dl, h5, h6, x, hx, s, h7, h8, h9⟩
      cases hx
      refine ⟨r, hr, he, hs, dl, h5, h6, _, rfl, s, h7, (hsite r hr dl h5.1 s (List.mem_append_right _ h7)).2 h8, .inr ?_⟩
      rcases h9 with rfl | h9
      · exact hd
      · exact h9
    · rintro ⟨r, hr, he, hs, dl, h5, h6, x, hx, s, h7, h8, h9⟩
      cases hx
      refine ⟨r, hr, he, hs, dl, h5, h6, _, rfl, s, h7, (hsite r hr dl h5.1 s (List.mem_append_right _ h7)).1 h8, .inr ?_⟩
      rcases h9 with rfl | h9
      · simp
      · exact h9
  have key : ∀ r ∈ rs, (Counted E.bad rs { q with domain := some d } r ∧ r.AppliesTo tags { q with domain := some d }) ↔
      (Counted E.bad rs { q with domain := some (sub ++ ch%'.' :: d) } r ∧ r.AppliesTo tags { q with domain := some (sub ++ ch%'.' :: d) }) := by
    intro r hr
    refine and_congr ?_ (and_congr_right fun _ => and_congr ?_ (and_congr ?_ (and_congr_right fun _ => Iff.rfl)))
    · rw [counted_gate, counted_gate, hgate]
      simp [HostCounted]
    · unfold RuleText.TypeAllowed
      cases q.type <;> simp
    · unfold RuleText.PageAllowed
      have e : ∀ x, (∀ y, ({ q with domain := some x } : Request).domain = some y → (r.Says bs%"third-party" → ¬ SameSite y q.host) ∧
          (r.Denies bs%"third-party" → SameSite y q.host) ∧ ∀ dl, r.value bs%"domain=" = some dl → DomainAdmitted dl y) ↔
          ((r.Says bs%"third-party" → ¬ SameSite x q.host) ∧ (r.Denies bs%"third-party" → SameSite x q.host) ∧
            ∀ dl, r.value bs%"domain=" = some dl → DomainAdmitted dl x) := by
        intro x
        constructor
        · exact fun h => h x rfl
        · rintro h y ⟨⟩
          exact h
      refine (e d).trans (Iff.trans ?_ (e _).symm)
      have hadm : (∀ dl, r.value bs%"domain=" = some dl → DomainAdmitted dl d) ↔
          ∀ dl, r.value bs%"domain=" = some dl → DomainAdmitted dl (sub ++ ch%'.' :: d) :=
        forall_congr' fun dl => forall_congr' fun hdl => (admitted_subdomain (hsite r hr dl hdl)).symm
      rw [hadm]
      rcases hp with hp | hp
      · simp [(hp r hr).1, (hp r hr).2]
      · rw [hp]
  have : b = b' := by
    rw [Bool.eq_iff_iff, h2, h4]
    exact and_congr (exists_congr fun r => and_congr_right fun hr' => and_congr_right fun _ => key r hr')
      (not_congr (exists_congr fun r => and_congr_right fun hr' => and_congr_right fun _ => key r hr'))
  exact ⟨b, h1, this ▸ h3⟩

/-! ### examples -/

def exOnPage (d : Bytes) : Request := exRequest bs%"b.com" bs%"/banner" (some (bs%"script", FOScript)) (some d)

theorem exOnPage_web (d : Bytes) : (exOnPage d).Web :=
  ⟨exBanner_web.scheme, exBanner_web.host, exBanner_web.rest, exBanner_web.text, exBanner_web.type⟩

/-- **C95** fails for options about the party: a page of `www.b.com` is taken for a third party if it requests something of `b.com`. -/
theorem C95_party_counterexample {E : Env} (hroll : ∀ url, E.fp.rolls url) : Answers E bs%"banner$third-party" false [] (exOnPage bs%"b.com") false ∧
    Answers E bs%"banner$third-party" false [] (exOnPage bs%"www.b.com") true :=
  ⟨answers_compared (v := false) (r := { text := bs%"banner", options := some bs%"third-party" }) hroll (by decide +kernel) rfl
    (.inl (by decide +kernel)) (by decide +kernel) (by decide +kernel) (exOnPage_web _) (by decide +kernel),
   answers_compared (v := true) (r := { text := bs%"banner", options := some bs%"third-party" }) hroll (by decide +kernel) rfl
    (.inl (by decide +kernel)) (by decide +kernel) (by decide +kernel) (exOnPage_web _) (by decide +kernel)⟩

/-- **C95**, an example: a rule for the pages of a domain, and one for all others. -/
example {E : Env} (hroll : ∀ url, E.fp.rolls url) : ∃ b, Answers E bs%"banner$domain=a.com\nbann$domain=~a.com" false [] (exOnPage bs%"a.com") b ∧
    Answers E bs%"banner$domain=a.com\nbann$domain=~a.com" false [] (exOnPage bs%"www.a.com") b := by
  let rs : List RuleText := [{ text := bs%"banner", options := some bs%"domain=a.com" }, { text := bs%"bann", options := some bs%"domain=~a.com" }]
  have hp : ∀ r ∈ rs, plainRule r = true := by decide +kernel
  refine C95_subdomain_page_partial (rs := rs) (q := exBanner) (d := bs%"a.com") (sub := bs%"www") (lists_rules (plainRules_sound hp) (by simp [rs]))
    (by decide) ?_ (.inl (by decide +kernel)) false [] (plainRules_askable hroll hp (exOnPage_web _)) (plainRules_askable hroll hp (exOnPage_web _))
  have h1 : ∀ r ∈ rs, r.value bs%"domain=" = some bs%"a.com" ∨ r.value bs%"domain=" = some bs%"~a.com" := by decide +kernel
  intro r hr dl hdl s hs _
  have h2 : ∀ dl ∈ [bs%"a.com", bs%"~a.com"], ∀ s ∈ positive dl ++ negative dl, bs%"a.com" = s := by decide +kernel
  refine .inl (h2 dl ?_ s hs)
  rcases h1 r hr with h | h <;> rw [h] at hdl <;> cases hdl <;> simp

def exNotLan : RuleText := { text := bs%"&b=", options := some bs%"domain=~lan" }

def exOnLan (d : Bytes) : Request := { exOnY with domain := some d }

theorem exOnLan_web (d : Bytes) : (exOnLan d).Web := ⟨exOnY_web.scheme, exOnY_web.host, exOnY_web.rest, exOnY_web.text, exOnY_web.type⟩

theorem exNotLan_byDomain (bad : List Bytes) (dl : Bytes) : ByDomain bad exNotLan dl ↔ dl = bs%"~lan" := by
  unfold ByDomain
  rw [show exNotLan.value bs%"domain=" = some bs%"~lan" from by decide +kernel, Option.some.injEq]
  exact ⟨fun h => h.1.symm, fun h => ⟨h.symm, fun hh => (nomatch hh.1), short_not_indexable (by decide +kernel)⟩⟩

/-- **C95** fails for domains without a dot: such a domain can be excluded (by a rule without a fingerprint), its subdomains are not. -/
theorem C95_dot_counterexample {E : Env} (hroll : ∀ url, E.fp.rolls url) : Answers E bs%"&b=$domain=~lan" false [] (exOnLan bs%"lan") false ∧
    Answers E bs%"&b=$domain=~lan" false [] (exOnLan bs%"a.lan") true := by
  have hp : ∀ r ∈ [exNotLan], plainRule r = true := by decide +kernel
  have hl : Lists E bs%"&b=$domain=~lan" [exNotLan] := lists_rules (plainRules_sound hp) (by simp)
  constructor
  · obtain ⟨b, h1, h2⟩ := answers_iff hl false [] (plainRules_askable hroll hp (exOnLan_web bs%"lan"))
    have : b = false := by
      rw [← Bool.not_eq_true, h2]
      rintro ⟨⟨r, hr, -, hc, ha⟩, -⟩
      rw [List.mem_singleton.1 hr] at hc ha
      exact hc.excluded bs%"~lan" ((exNotLan_byDomain E.bad _).2 rfl) (by decide +kernel) exNotLan (by simp) rfl ha.1 bs%"~lan"
        ((exNotLan_byDomain E.bad _).2 rfl) (by decide +kernel) bs%"lan" rfl bs%"lan" (by decide +kernel) ⟨.inl rfl, .inl rfl⟩
    exact this ▸ h1
  · obtain ⟨b, h1, h2⟩ := answers_iff hl false [] (plainRules_askable hroll hp (exOnLan_web bs%"a.lan"))
    have : b = true := by
      rw [h2]
      refine ⟨⟨exNotLan, by simp, rfl, ⟨fun hh => (nomatch hh.1), fun _ _ _ => by simp [exOnLan], ?_⟩,
        (applies_compared (v := true) (by decide +kernel) (exOnLan_web bs%"a.lan") (by decide +kernel) (by decide +kernel) []).2 rfl⟩, ?_⟩
      · intro dl _ _ r hr _ _ dl' h3 _ d hd s hs h4
        rw [List.mem_singleton.1 hr, exNotLan_byDomain] at h3
        subst h3
        cases hd
        rw [show negative bs%"~lan" = [bs%"lan"] from by decide +kernel, List.mem_singleton] at hs
        subst hs
        exact absurd h4.2 (by decide)
      · rintro ⟨r, hr, he, -⟩
        rw [List.mem_singleton.1 hr] at he
        cases he
    exact this ▸ h1

end AdBlock
