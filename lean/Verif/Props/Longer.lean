import Verif.Props.Covered
/-
Addresses to which something is added at the end.
-/
namespace AdBlock
open Spec

/-- A part of a pattern fits an address that goes on: with a separator, or anyhow if it has no `^`. -/
theorem partAt_longer {p u v : Bytes} (hv : (∃ c w, v = c :: w ∧ IsSep c) ∨ ch%'^' ∉ p) (h : PartAt p u) : PartAt p (u ++ v) := by
  induction p generalizing u with
  | nil => trivial
  | cons c p ih =>
    cases u with
    | nil =>
      obtain ⟨rfl, rfl⟩ := h
      rcases hv with ⟨d, w, rfl, hd⟩ | hv
      · exact ⟨.inr ⟨rfl, hd⟩, trivial⟩
      · simp at hv
    | cons d u => exact ⟨h.1, ih (hv.imp_right fun h hm => h (List.mem_cons_of_mem _ hm)) h.2⟩

theorem placedParts_longer {ps : List Bytes} {u v : Bytes} (hv : (∃ c w, v = c :: w ∧ IsSep c) ∨ ∀ p ∈ ps, ch%'^' ∉ p) (h : PlacedParts ps u) :
    PlacedParts ps (u ++ v) := by
  induction ps generalizing u with
  | nil => trivial
  | cons p ps ih =>
    rcases h with h | ⟨h1, h2, k, h3, h4, h5⟩
    · exact .inl h
    · refine .inr ⟨h1, by simp only [List.length_append]; omega, k, by simp only [List.length_append]; omega, ?_, ?_⟩
      · rw [List.drop_append_of_le_length (by omega)]
        exact partAt_longer (hv.imp_right fun h => h p (by simp)) h4
      · by_cases hk : k + p.length ≤ u.length
        · rw [List.drop_append_of_le_length hk]
          exact ih (hv.imp_right fun h x hx => h x (List.mem_cons_of_mem _ hx)) h5
        · rw [List.drop_eq_nil_of_le (by omega)] at h5
          match ps, h5 with
          | [], _ => trivial
          | x :: xs, .inl h => exact .inl h
          | x :: xs, .inr ⟨_, _, k, hk, _⟩ => exact absurd hk (by simp)

theorem placed_longer {t u v : Bytes} (hv : (∃ c w, v = c :: w ∧ IsSep c) ∨ ch%'^' ∉ t) (h : Placed t u) : Placed t (u ++ v) :=
  placedParts_longer (hv.imp_right fun h _ hp hm => h (mem_of_mem_splitOn hp hm)) h

theorem longer_url (q : Request) (more : Bytes) : Request.url { q with rest := q.rest ++ more } = q.url ++ more := by
  simp [Request.url]

theorem fits_longer {r : RuleText} {q : Request} {more : Bytes} (hb : r.rightBar = false) (hm : (∃ c w, more = c :: w ∧ IsSep c) ∨ ch%'^' ∉ r.text)
    (h : r.AddressFits q) : r.AddressFits { q with rest := q.rest ++ more } := by
  have hp := fun h => placed_longer (t := r.text) (u := q.url) (v := more) hm h
  unfold RuleText.AddressFits at h ⊢
  rw [longer_url]
  rw [hb] at h ⊢
  cases ha : r.anchor <;> rw [ha] at h
  · exact hp h
  · exact h.trans (List.prefix_append _ _)
  · exact ⟨h.1, hp h.2⟩

/-- **C92** for exceptions, as far as it holds: one that applies to a request also keeps those with longer addresses from being blocked, unless
a known defect is to do with it. -/
theorem C92_exception_partial {E : Env} {A : Bytes} {rs : List RuleText} (hA : Lists E A rs) {tags : List Bytes} {q : Request} {more : Bytes}
    {r : RuleText} (hr : r ∈ rs) (he : r.exception = true) (hrel : Reliable E.bad rs r) (hb : r.rightBar = false)
    (hm : (∃ c w, more = c :: w ∧ IsSep c) ∨ ch%'^' ∉ r.text) (ha : r.AppliesTo tags q)
    (preserve : Bool) (hq : Askable E rs { q with rest := q.rest ++ more }) :
    Answers E A preserve tags { q with rest := q.rest ++ more } false := by
  obtain ⟨b, h1, h2⟩ := answers_iff hA preserve tags hq
  have : b = false := by
    rw [← Bool.not_eq_true, h2]
    exact fun h => h.2 ⟨r, hr, he, reliable_counted hrel _, ha.1, ha.2.1, ha.2.2.1, ha.2.2.2.1, fits_longer hb hm ha.2.2.2.2⟩
  exact this ▸ h1

/-- **C92**, as far as it holds: what is blocked is so with anything added at the end of its address, if this begins with a separator or the
blocking rules have no `^`, they have no bar at their end, and no exception applies to the longer address. -/
theorem C92_longer_partial {E : Env} {A : Bytes} {rs : List RuleText} (hA : Lists E A rs) {tags : List Bytes} {q : Request} {more : Bytes}
    (hb : ∀ r ∈ rs, r.exception = false → r.rightBar = false)
    (hm : (∃ c w, more = c :: w ∧ IsSep c) ∨ ∀ r ∈ rs, r.exception = false → ch%'^' ∉ r.text)
    (he : ∀ r ∈ rs, r.exception = true → ¬ r.AppliesTo tags { q with rest := q.rest ++ more })
    (preserve : Bool) (hq : Askable E rs q) (hq' : Askable E rs { q with rest := q.rest ++ more }) (h : Answers E A preserve tags q true) :
    Answers E A preserve tags { q with rest := q.rest ++ more } true := by
  obtain ⟨b, h1, h2⟩ := answers_iff hA preserve tags hq
  obtain ⟨b', h3, h4⟩ := answers_iff hA preserve tags hq'
  rw [answers_unique h1 h] at h2
  obtain ⟨⟨r, hr, hre, hc, ha1, ha2, ha3, ha4, ha5⟩, -⟩ := h2.1 rfl
  have : b' = true := by
    rw [h4]
    refine ⟨⟨r, hr, hre, ⟨hc.host, hc.page, hc.excluded⟩, ha1, ha2, ha3, ha4, ?_⟩, fun ⟨x, hx, hxe, _, hxa⟩ => he x hx hxe hxa⟩
    exact fits_longer (hb r hr hre) (hm.imp_right fun h => h r hr hre) ha5
  exact this ▸ h3

/-- **C92** for exceptions, an example. -/
example {E : Env} (hroll : ∀ url, E.fp.rolls url) {more : Bytes} (h : 0 ∉ more) : Answers E bs%"banner\n@@||b.com/ban" false []
    { exBanner with rest := exBanner.rest ++ more } false := by
  let r : RuleText := { exception := true, anchor := .host, text := bs%"b.com/ban" }
  have hp : ∀ x ∈ [({ text := bs%"banner" } : RuleText), r], plainRule x = true := by decide +kernel
  exact C92_exception_partial (rs := [({ text := bs%"banner" } : RuleText), r]) (r := r) (lists_rules (plainRules_sound hp) (by simp)) (by simp) rfl
    ⟨fun h => absurd h (by decide +kernel), .inl (by decide +kernel)⟩ rfl (.inr (by decide +kernel))
    ((applies_compared (v := true) (by decide +kernel) exBanner_web (by decide +kernel) (by decide +kernel) []).2 rfl) false
    (plainRules_askable hroll hp ⟨exBanner_web.scheme, exBanner_web.host, .inr ⟨ch%'/', bs%"banner" ++ more, rfl, by decide +kernel⟩,
      ⟨exBanner_web.text.1, fun hm => (List.mem_append.1 hm).elim exBanner_web.text.2 h⟩, exBanner_web.type⟩)

/-- a request with a query -/
def exQuery (more : Bytes) : Request := exRequest bs%"b.com" (bs%"/banner" ++ more) (some (bs%"script", FOScript)) none

theorem exQuery_web {more : Bytes} (h : 0 ∉ more) : (exQuery more).Web :=
  ⟨exBanner_web.scheme, exBanner_web.host, .inr ⟨ch%'/', bs%"banner" ++ more, rfl, by decide +kernel⟩, ⟨exBanner_web.text.1, fun hm =>
    (List.mem_append.1 hm).elim exBanner_web.text.2 h⟩, exBanner_web.type⟩

/-- **C92** fails for rules with `^` at their end, if the address goes on with `&` or `#`, which are no separators for the library. -/
theorem C92_separator_counterexample {E : Env} (hroll : ∀ url, E.fp.rolls url) : Answers E bs%"banner^" false [] exBanner true ∧
    Answers E bs%"banner^" false [] (exQuery bs%"&x") false ∧ Answers E bs%"banner^" false [] (exQuery bs%"#x") false :=
  ⟨answers_compared (v := true) (r := { text := bs%"banner^" }) hroll (by decide +kernel) rfl (.inl (by decide +kernel)) (by decide +kernel)
    (by decide +kernel) exBanner_web (by decide +kernel),
   answers_compared (v := false) (r := { text := bs%"banner^" }) hroll (by decide +kernel) rfl (.inl (by decide +kernel)) (by decide +kernel)
    (by decide +kernel) (exQuery_web (by decide)) (by decide +kernel),
   answers_compared (v := false) (r := { text := bs%"banner^" }) hroll (by decide +kernel) rfl (.inl (by decide +kernel)) (by decide +kernel)
    (by decide +kernel) (exQuery_web (by decide)) (by decide +kernel)⟩

/-- **C92**, an example: the same rule blocks the address with any query. -/
example {E : Env} (hroll : ∀ url, E.fp.rolls url) {query : Bytes} (h : 0 ∉ query) : Answers E bs%"banner^" false [] (exQuery (ch%'?' :: query)) true := by
  have hp : ∀ r ∈ [({ text := bs%"banner^" } : RuleText)], plainRule r = true := by decide +kernel
  exact C92_longer_partial (q := exBanner) (more := ch%'?' :: query) (lists_rules (plainRules_sound hp) (by simp)) (by simp)
    (.inl ⟨_, _, rfl, by decide +kernel⟩) (by simp) false (plainRules_askable hroll hp exBanner_web)
    (plainRules_askable hroll hp (exQuery_web (by simpa using h)))
    (C92_separator_counterexample hroll).1

end AdBlock
