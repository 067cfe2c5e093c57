import Verif.Props.Locality
/-
A rule is as good as its two halves: one with an option, and one with the opposite option.
-/
namespace AdBlock
open Spec

/-- The options of which there is an opposite. -/
def halfNames : List Bytes := bs%"third-party" :: typeTable.map (·.1)

theorem halfNames_facts : ∀ n ∈ halfNames, fullName n = some n ∧ fullName (ch%'~' :: n) = none ∧ RuleText.unsigned (ch%'~' :: n) = n ∧
    RuleText.unsigned n = n ∧ n.head? ≠ some ch%'~' ∧ n ∉ [bs%"popup", bs%"elemhide", bs%"generichide", bs%"genericblock", bs%"empty"] ∧
    (∀ k ∈ [bs%"domain=", bs%"tag=", bs%"csp="], ¬ k <+: n) ∧ ¬ bs%"csp=" <+: ch%'~' :: n ∧
    n ≠ bs%"collapse" ∧ n ≠ bs%"donottrack" := by decide +kernel

theorem typeTable_names : ∀ t ∈ typeTable, ∀ t' ∈ typeTable, t.1 = t'.1 → t = t' := by decide +kernel

section
variable {name : Bytes} {r p p' : RuleText}

theorem halves_says (hn : name ∈ halfNames) (h : Halves name r p p') (n : Bytes) :
    (p.Says n ↔ n = name ∨ r.Says n) ∧ (p'.Says n ↔ r.Says n) ∧ (p.Denies n ↔ r.Denies n) ∧ (p'.Denies n ↔ n = name ∨ r.Denies n) := by
  obtain ⟨h1, h2, h3, -, h5, -⟩ := halfNames_facts name hn
  unfold RuleText.Says RuleText.Denies
  rw [h.options.1, h.options.2]
  simp only [List.mem_cons, exists_eq_or_imp, h1, h2, h3, h5, List.head?_cons, Option.some.injEq, reduceCtorEq, false_and, false_or, true_and,
    eq_comm (a := name)]

theorem halves_value (hn : name ∈ halfNames) (h : Halves name r p p') {k : Bytes} (hk : k ∈ [bs%"domain=", bs%"tag="]) :
    p.value k = r.value k ∧ p'.value k = r.value k := by
  obtain ⟨-, -, h3, h4, -, -, h7, -⟩ := halfNames_facts name hn
  have hk' : ¬ k <+: name := h7 k (by simp at hk ⊢; rcases hk with h | h <;> simp [h])
  exact ⟨value_append (front := []) (front' := [name]) rfl h.options.1 (by simp) (by simp only [List.mem_singleton, forall_eq, h4]; exact hk'),
    value_append (front := []) (front' := [ch%'~' :: name]) rfl h.options.2 (by simp) (by simp only [List.mem_singleton, forall_eq, h3]; exact hk')⟩

theorem halves_supported (hn : name ∈ halfNames) : ¬ RuleText.Unsupported name ∧ ¬ RuleText.Unsupported (ch%'~' :: name) := by
  obtain ⟨h1, h2, -, -, -, h6, h7, h8, -⟩ := halfNames_facts name hn
  constructor
  · rintro (⟨n, hn', h⟩ | h | ⟨-, -, h⟩)
    · rw [h1] at h
      cases h
      exact h6 hn'
    · exact h7 _ (by simp) h
    · rw [h1] at h; cases h
  · rintro (⟨n, -, h⟩ | h | ⟨h, -⟩)
    · rw [h2] at h; cases h
    · exact h8 h
    · exact h rfl

theorem halves_asGood {bad tags : List Bytes} {q : Request} (hn : name ∈ halfNames) (h : Halves name r p p') (hh : ¬ r.HostOnly)
    (hallowed : (r.TypeAllowed q ∧ r.PageAllowed q) ↔ ∃ x ∈ [p, p'], x.TypeAllowed q ∧ x.PageAllowed q) : AsGood bad tags q r [p, p'] := by
  have both : ∀ {P : RuleText → Prop}, P p → P p' → ∀ x ∈ [p, p'], P x := by
    intro P h1 h2 x hx
    simp only [List.mem_cons, List.not_mem_nil, or_false] at hx
    rcases hx with rfl | rfl
    · exact h1
    · exact h2
  have hd := halves_value hn h (k := bs%"domain=") (by simp)
  have ht := halves_value hn h (k := bs%"tag=") (by simp)
  refine asGood_of (both h.same.1 h.same.2) (by simp) hh (both ?_ ?_) (both ht.1 ht.2) hallowed (both (by rw [hd.1]) (by rw [hd.2]))
    (both (fun dl _ => by rw [hd.1]) (fun dl _ => by rw [hd.2]))
  · rw [h.options.1]
    simp [(halves_supported hn).1]
  · rw [h.options.2]
    simp [(halves_supported hn).2]

theorem halves_party {bad tags : List Bytes} {q : Request} (h : Halves bs%"third-party" r p p') (hh : ¬ r.HostOnly) : AsGood bad tags q r [p, p'] := by
  have hn : bs%"third-party" ∈ halfNames := List.mem_cons_self
  refine halves_asGood hn h hh ?_
  have hty : ∀ t ∈ typeTable, t.1 ≠ bs%"third-party" := by decide +kernel
  have e1 : p.types = r.types ∧ p'.types = r.types := ⟨List.filter_congr fun t ht => decide_eq_decide.2 (by rw [(halves_says hn h t.1).1]; simp [hty t ht]),
    List.filter_congr fun t ht => decide_eq_decide.2 (by rw [(halves_says hn h t.1).2.1])⟩
  have e2 : p.notTypes = r.notTypes ∧ p'.notTypes = r.notTypes := ⟨List.filter_congr fun t ht => decide_eq_decide.2 (by rw [(halves_says hn h t.1).2.2.1]),
    List.filter_congr fun t ht => decide_eq_decide.2 (by rw [(halves_says hn h t.1).2.2.2]; simp [hty t ht])⟩
  have e3 : (p.TakenForType ↔ r.TakenForType) ∧ (p'.TakenForType ↔ r.TakenForType) := by
    unfold RuleText.TakenForType
    simp only [(halves_says hn h _).1, (halves_says hn h _).2.1]
    simp
  have t1 : (p.TypeAllowed q ↔ r.TypeAllowed q) ∧ (p'.TypeAllowed q ↔ r.TypeAllowed q) := by
    unfold RuleText.TypeAllowed
    simp only [e1, e2, e3, and_self]
  have hd := halves_value hn h (k := bs%"domain=") (by simp)
  simp only [List.mem_cons, List.not_mem_nil, or_false, exists_eq_or_imp, exists_eq_left, t1, ← and_or_left]
  refine and_congr_right fun _ => ?_
  unfold RuleText.PageAllowed
  simp only [(halves_says hn h _).1, (halves_says hn h _).2.1, (halves_says hn h _).2.2.1, (halves_says hn h _).2.2.2, hd.1, hd.2, true_or, true_imp_iff]
  cases q.domain with
  | none => simp
  | some d =>
    simp only [Option.some.injEq, forall_eq', h.silent.1, h.silent.2, false_imp_iff, true_and]
    by_cases hs : SameSite d q.host <;> simp [hs]

theorem halves_type {bad tags : List Bytes} {q : Request} {t : Bytes × Mask} (ht : t ∈ typeTable) (hdoc : t.1 ≠ bs%"document")
    (h : Halves t.1 r p p') (hh : ¬ r.HostOnly) (hq : q.type ≠ none ∨ q.domain ≠ none) : AsGood bad tags q r [p, p'] := by
  have hn : t.1 ∈ halfNames := List.mem_cons_of_mem _ (List.mem_map.2 ⟨t, ht, rfl⟩)
  have hparty : t.1 ≠ bs%"third-party" := (by decide +kernel : ∀ t ∈ typeTable, t.1 ≠ bs%"third-party") t ht
  obtain ⟨hempty, htaken⟩ := h.types hparty
  refine halves_asGood hn h hh ?_
  have hf := halfNames_facts t.1 hn
  have hsays : ∀ x ∈ typeTable, ¬ r.Says x.1 := by
    intro x hx hs
    have : x ∈ r.types := List.mem_filter.2 ⟨hx, by simpa using hs⟩
    rw [hempty] at this
    cases this
  have m1 : ∀ x, x ∈ p.types ↔ x = t := by
    intro x
    unfold RuleText.types
    rw [List.mem_filter, decide_eq_true_iff, (halves_says hn h _).1]
    constructor
    · rintro ⟨hx, h1 | h1⟩
      · exact typeTable_names x hx t ht h1
      · exact absurd h1 (hsays x hx)
    · rintro rfl
      exact ⟨ht, .inl rfl⟩
  have m2 : p'.types = [] := by
    unfold RuleText.types
    rw [List.filter_eq_nil_iff]
    intro x hx
    rw [decide_eq_true_iff, (halves_says hn h _).2.1]
    exact hsays x hx
  have m3 : p.notTypes = r.notTypes := List.filter_congr fun x _ => decide_eq_decide.2 (by rw [(halves_says hn h x.1).2.2.1])
  have m4 : ∀ x, x ∈ p'.notTypes ↔ x = t ∨ x ∈ r.notTypes := by
    intro x
    unfold RuleText.notTypes
    rw [List.mem_filter, List.mem_filter, decide_eq_true_iff, decide_eq_true_iff, (halves_says hn h _).2.2.2]
    constructor
    · rintro ⟨hx, h1 | h1⟩
      · exact .inl (typeTable_names x hx t ht h1)
      · exact .inr ⟨hx, h1⟩
    · rintro (rfl | ⟨hx, h1⟩)
      · exact ⟨ht, .inl rfl⟩
      · exact ⟨hx, .inr h1⟩
  have m5 : ¬ p'.TakenForType := by
    unfold RuleText.TakenForType at htaken ⊢
    rw [(halves_says hn h _).2.1, (halves_says hn h _).2.1]
    exact htaken
  have m6 : t ∉ r.notTypes := fun hm => h.silent.2 (by simpa using (List.mem_filter.1 hm).2)
  have hpage : (p.PageAllowed q ↔ r.PageAllowed q) ∧ (p'.PageAllowed q ↔ r.PageAllowed q) := by
    have hd := halves_value hn h (k := bs%"domain=") (by simp)
    unfold RuleText.PageAllowed
    simp only [(halves_says hn h _).1, (halves_says hn h _).2.1, (halves_says hn h _).2.2.1, (halves_says hn h _).2.2.2, hd.1, hd.2, Ne.symm hparty,
      false_or, and_self]
  simp only [List.mem_cons, List.not_mem_nil, or_false, exists_eq_or_imp, exists_eq_left, hpage, ← or_and_right]
  refine and_congr_left fun _ => ?_
  have hpne : p.types ≠ [] := List.ne_nil_of_mem ((m1 t).2 rfl)
  unfold RuleText.TypeAllowed
  cases hx : q.type with
  | none =>
    have hdom : q.domain ≠ none := hq.resolve_left (by simp [hx])
    simp [hempty, htaken, hdom, hpne, m2, m5]
  | some x =>
    simp only [hempty, m1, hpne, m2, m3, m4, m5, htaken, List.not_mem_nil, false_or, false_and, or_false, not_false_eq_true, and_self, true_and]
    by_cases hxt : x = t
    · subst hxt
      simp [m6, hdoc]
    · simp [hxt]

end

theorem halved_replaced {bad tags : List Bytes} {q : Request} {name : Bytes} {rs rs' : List RuleText} (h : Halved name rs rs')
    (hg : ∀ {r p p' : RuleText}, Halves name r p p' → ¬ r.HostOnly → AsGood bad tags q r [p, p']) : Replaced bad tags q rs rs' := by
  induction h with
  | nil => exact .nil
  | keep _ ih => exact .keep ih
  | halves h hh _ ih => exact .by (hg h hh) ih

/-- **C89**, as far as it holds: rules other than those that consist of a host can be replaced by one for third parties and one for all
others. -/
theorem C89_party_partial {E : Env} {A B : Bytes} {rs rs' : List RuleText} (hA : Lists E A rs) (hB : Lists E B rs')
    (h : Halved bs%"third-party" rs rs') (preserve preserve' : Bool) (tags : List Bytes) {q : Request} (hq : Askable E rs q) :
    ∃ b, Answers E A preserve tags q b ∧ Answers E B preserve' tags q b :=
  answers_replaced hA hB (halved_replaced h halves_party) preserve preserve' hq

/-- **C89**, as far as it holds: they can be replaced by one for a type (other than main documents) and one for all other types, as far as
requests of known type or from a known page are concerned. -/
theorem C89_type_partial {E : Env} {A B : Bytes} {rs rs' : List RuleText} (hA : Lists E A rs) (hB : Lists E B rs') {t : Bytes × Mask}
    (ht : t ∈ typeTable) (hdoc : t.1 ≠ bs%"document") (h : Halved t.1 rs rs') (preserve preserve' : Bool) (tags : List Bytes) {q : Request}
    (hk : q.type ≠ none ∨ q.domain ≠ none) (hq : Askable E rs q) :
    ∃ b, Answers E A preserve tags q b ∧ Answers E B preserve' tags q b :=
  answers_replaced hA hB (halved_replaced h fun h hh => halves_type ht hdoc h hh hk) preserve preserve' hq

def exForeign : RuleText := { anchor := .host, text := bs%"ads.com^", options := some bs%"third-party" }
def exOwn : RuleText := { anchor := .host, text := bs%"ads.com^", options := some bs%"~third-party" }

/-- **C89** fails for rules that consist of a host: only the first of the two halves is kept (C52). -/
theorem C89_host_counterexample {E : Env} (hroll : ∀ url, E.fp.rolls url) :
    Answers E bs%"||ads.com^" false [] { exAds with domain := some bs%"ads.com" } true ∧
    Answers E bs%"||ads.com^$third-party\n||ads.com^$~third-party" false [] { exAds with domain := some bs%"ads.com" } false := by
  have hw : ({ exAds with domain := some bs%"ads.com" } : Request).Web := 
    ⟨exAds_web.scheme, exAds_web.host, exAds_web.rest, exAds_web.text, exAds_web.type⟩
  refine ⟨answers_compared (v := true) (r := { anchor := .host, text := bs%"ads.com^" }) hroll (by decide +kernel) rfl
    (.inr (by decide +kernel)) (by decide +kernel) (by decide +kernel) hw (by decide +kernel), ?_⟩
  have hp2 : ∀ r ∈ [exForeign, exOwn], plainRule r = true := by decide +kernel
  obtain ⟨b, h1, h2⟩ := answers_iff (lists_rules (E := E) (plainRules_sound hp2) (by simp)) false [] (plainRules_askable hroll hp2 hw)
  cases b with
  | false => exact h1
  | true =>
    exfalso
    obtain ⟨⟨r, hr, -, hc, ha⟩, -⟩ := h2.1 rfl
    simp only [List.mem_cons, List.not_mem_nil, or_false] at hr
    rcases hr with rfl | rfl
    · rw [applies_compared (v := false) (by decide +kernel) hw (by decide +kernel) (by decide +kernel)] at ha
      cases ha
    · rw [counted_gate, hostCounted_find] at hc
      have h3 := (hc.1 (by decide +kernel)).1
      rw [show [exForeign, exOwn].find? (likeHost exOwn) = some exForeign from rfl, Option.some.injEq] at h3
      exact absurd (congrArg RuleText.options h3) (by decide)

def exOnlyScript : RuleText := { text := bs%"banner", options := some bs%"script" }
def exNoScript : RuleText := { text := bs%"banner", options := some bs%"~script" }

/-- **C89** fails for requests of which neither the type nor the page is known: neither half is applied. -/
theorem C89_unknown_counterexample {E : Env} (hroll : ∀ url, E.fp.rolls url) :
    Answers E bs%"banner" false [] { exBanner with type := none, domain := none } true ∧
    Answers E bs%"banner$script\nbanner$~script" false [] { exBanner with type := none, domain := none } false := by
  have hw : ({ exBanner with type := none, domain := none } : Request).Web :=
    ⟨exBanner_web.scheme, exBanner_web.host, exBanner_web.rest, exBanner_web.text, by simp⟩
  refine ⟨answers_compared (v := true) (r := { text := bs%"banner" }) hroll (by decide +kernel) rfl
    (.inl (by decide +kernel)) (by decide +kernel) (by decide +kernel) hw (by decide +kernel), ?_⟩
  have hp2 : ∀ r ∈ [exOnlyScript, exNoScript], plainRule r = true := by decide +kernel
  obtain ⟨b, h1, h2⟩ := answers_iff (lists_rules (E := E) (plainRules_sound hp2) (by simp)) false [] (plainRules_askable hroll hp2 hw)
  cases b with
  | false => exact h1
  | true =>
    exfalso
    obtain ⟨⟨r, hr, -, -, ha⟩, -⟩ := h2.1 rfl
    simp only [List.mem_cons, List.not_mem_nil, or_false] at hr
    rcases hr with rfl | rfl
    · rw [applies_compared (v := false) (by decide +kernel) hw (by decide +kernel) (by decide +kernel)] at ha
      cases ha
    · rw [applies_compared (v := false) (by decide +kernel) hw (by decide +kernel) (by decide +kernel)] at ha
      cases ha

/-- **C89**, examples: a rule and its halves. -/
theorem exBanner_halves : Halves bs%"script" { text := bs%"banner" } exOnlyScript exNoScript :=
  ⟨⟨rfl, rfl⟩, by decide +kernel, by simp [RuleText.Says, RuleText.Denies, RuleText.entries],
    fun _ => by simp [RuleText.types, RuleText.TakenForType, RuleText.Says, RuleText.entries]⟩

example {E : Env} (hroll : ∀ url, E.fp.rolls url) : ∃ b, Answers E bs%"banner" false [] exBanner b ∧
    Answers E bs%"banner$script\nbanner$~script" true [] exBanner b := by
  have hp : ∀ r ∈ [({ text := bs%"banner" } : RuleText)], plainRule r = true := by decide +kernel
  have hp2 : ∀ r ∈ [exOnlyScript, exNoScript], plainRule r = true := by decide +kernel
  exact C89_type_partial (t := (bs%"script", FOScript)) (lists_rules (plainRules_sound hp) (by simp)) (lists_rules (plainRules_sound hp2) (by simp))
    (by decide +kernel) (by decide +kernel) (.halves exBanner_halves (by decide +kernel) .nil) false true [] (.inl nofun)
    (plainRules_askable hroll hp exBanner_web)

example {E : Env} (hroll : ∀ url, E.fp.rolls url) (page : Option Bytes) : ∃ b, Answers E bs%"banner$image" false [] { exBanner with domain := page } b ∧
    Answers E bs%"banner$third-party,image\nbanner$~third-party,image" true [] { exBanner with domain := page } b := by
  have hw : ({ exBanner with domain := page } : Request).Web :=
    ⟨exBanner_web.scheme, exBanner_web.host, exBanner_web.rest, exBanner_web.text, exBanner_web.type⟩
  have hp : ∀ r ∈ [({ text := bs%"banner", options := some bs%"image" } : RuleText)], plainRule r = true := by decide +kernel
  have hp2 : ∀ r ∈ [{ text := bs%"banner", options := some bs%"third-party,image" },
      ({ text := bs%"banner", options := some bs%"~third-party,image" } : RuleText)], plainRule r = true := by decide +kernel
  exact C89_party_partial (lists_rules (plainRules_sound hp) (by simp)) (lists_rules (plainRules_sound hp2) (by simp))
    (.halves ⟨⟨rfl, rfl⟩, by decide +kernel, by decide +kernel, fun h => absurd rfl h⟩ (by decide +kernel) .nil) false true []
    (plainRules_askable hroll hp hw)

end AdBlock
