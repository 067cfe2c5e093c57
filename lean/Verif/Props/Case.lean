import Verif.Props.Covered
/-
Upper and lower case: addresses are compared with the rules as they are written.
-/
namespace AdBlock
open Spec

theorem lower_facts : ∀ c : Byte, (IsSep (lower c) ↔ IsSep c) ∧ (lower c = ch%'*' ↔ c = ch%'*') ∧ (lower c = ch%'^' ↔ c = ch%'^') := by
  apply byte_forall
  decide +kernel

theorem partAt_lower {p u : Bytes} (h : PartAt p u) : PartAt (p.map lower) (u.map lower) := by
  induction p generalizing u with
  | nil => exact trivial
  | cons c p ih =>
    cases u with
    | nil =>
      obtain ⟨h1, h2⟩ := h
      subst h2
      exact ⟨(lower_facts c).2.2.2 h1, rfl⟩
    | cons d u =>
      refine ⟨?_, ih h.2⟩
      rcases h.1 with h | ⟨h1, h2⟩
      · exact .inl (by rw [h])
      · exact .inr ⟨(lower_facts c).2.2.2 h1, ((lower_facts d).1).2 h2⟩

theorem placedParts_lower {ps : List Bytes} {u : Bytes} (h : PlacedParts ps u) : PlacedParts (ps.map (·.map lower)) (u.map lower) := by
  induction ps generalizing u with
  | nil => exact trivial
  | cons p ps ih =>
    rcases h with ⟨h1, h2⟩ | ⟨h1, h2, k, h3, h4, h5⟩
    · subst h1 h2
      exact .inl ⟨rfl, rfl⟩
    · refine .inr ⟨?_, by simpa using h2, k, by simpa using h3, ?_, ?_⟩
      · intro h
        refine h1 ?_
        have hl : p.length = 1 := by simpa using congrArg List.length h
        obtain ⟨c, rfl⟩ := List.length_eq_one_iff.1 hl
        simp only [List.map_cons, List.map_nil, List.cons.injEq, and_true] at h
        rw [(lower_facts c).2.2.1 h]
      · rw [← List.map_drop]
        exact partAt_lower h4
      · rw [List.length_map, ← List.map_drop]
        exact ih h5

theorem splitOn_lower (t : Bytes) : splitOn ch%'*' (t.map lower) = (splitOn ch%'*' t).map (·.map lower) := by
  induction t with
  | nil => rfl
  | cons c t ih =>
    by_cases hc : c = ch%'*'
    · subst hc
      rw [List.map_cons, show lower ch%'*' = ch%'*' from by decide, splitOn_cons_sep, splitOn_cons_sep, ih]
      rfl
    · have hc' : lower c ≠ ch%'*' := fun h => hc ((lower_facts c).2.1.1 h)
      obtain ⟨p, ps, hp⟩ : ∃ p ps, splitOn ch%'*' t = p :: ps := by
        cases h : splitOn ch%'*' t with
        | nil => exact absurd h (splitOn_ne_nil _ _)
        | cons p ps => exact ⟨p, ps, rfl⟩
      rw [List.map_cons, splitOn_cons_of_ne hc' (by rw [ih, hp]; rfl), splitOn_cons_of_ne hc hp]
      rfl

theorem placed_lower {t u : Bytes} (h : Placed t u) : Placed (t.map lower) (u.map lower) := by
  unfold Placed at h ⊢
  rw [splitOn_lower]
  exact placedParts_lower h

theorem sameSite_lower {a b : Bytes} (h : SameSite a b) : SameSite (a.map lower) (b.map lower) := by
  rcases h with rfl | ⟨sub, rfl⟩
  · exact .inl rfl
  · exact .inr ⟨sub.map lower, by rw [List.map_append, List.map_cons, show lower ch%'.' = ch%'.' from by decide]⟩

theorem url_lowered (q : Request) : q.lowered.url = q.url.map lower := by
  unfold Request.url Request.lowered
  simp only [List.map_append]
  rw [show (bs%"://").map lower = bs%"://" from by decide]

theorem hostPart_lower {r : RuleText} (h : r.odd = none) : (lowerText r).hostPart = r.hostPart.map lower := by
  unfold RuleText.hostPart lowerText
  simp only [h]
  rw [List.takeWhile_map]
  congr 2
  funext c
  exact decide_eq_decide.2 (not_congr (lower_facts c).1)

/-- A rule which says nothing about pages applies, written in lower case, to the addresses to which it applies, written in lower case. -/
theorem lower_applies {r : RuleText} (hodd : r.odd = none) (hp : AnyPage r) {tags : List Bytes} {q : Request} (h : r.AppliesTo tags q) :
    (lowerText r).AppliesTo tags q.lowered := by
  obtain ⟨h1, h2, h3, h4, h5⟩ := h
  refine ⟨h1, h2, anyPage_allowed (r := lowerText r) hp _, h4, ?_⟩
  unfold RuleText.AddressFits at h5 ⊢
  rw [hostPart_lower hodd, url_lowered]
  cases ha : r.anchor <;> cases hb : r.rightBar <;> simp only [lowerText, ha, hb] at h5 ⊢
  · exact placed_lower h5
  · exact h5.map _
  · exact h5.map _
  · rw [h5]
  · exact ⟨sameSite_lower h5.1, placed_lower h5.2⟩
  · exact h5.map _

/-- **C88**, as far as it holds: what is blocked is blocked as well if the address and the rules are written in lower case (the list has no
exceptions and no options about pages). -/
theorem C88_lower_partial {E : Env} {A B : Bytes} {rs : List RuleText} (hA : Lists E A rs) (hB : Lists E B (rs.map lowerText))
    (h : ∀ r ∈ rs, r.odd = none ∧ r.exception = false ∧ AnyPage r) (hrel : ∀ r ∈ rs, Reliable E.bad (rs.map lowerText) (lowerText r))
    (preserve preserve' : Bool) (tags : List Bytes) {q : Request} (hq : Askable E rs q) (hq' : Askable E (rs.map lowerText) q.lowered)
    (hb : Answers E A preserve tags q true) : Answers E B preserve' tags q.lowered true := by
  obtain ⟨b, h1, h2⟩ := answers_iff hA preserve tags hq
  obtain ⟨b', h3, h4⟩ := answers_iff hB preserve' tags hq'
  obtain ⟨⟨r, hr, he, -, ha⟩, -⟩ := h2.1 (answers_unique h1 hb)
  have : b' = true := by
    rw [h4]
    refine ⟨⟨lowerText r, List.mem_map.2 ⟨r, hr, rfl⟩, he, reliable_counted (hrel r hr) _, lower_applies (h r hr).1 (h r hr).2.2 ha⟩, ?_⟩
    rintro ⟨x, hx, hxe, -⟩
    obtain ⟨y, hy, rfl⟩ := List.mem_map.1 hx
    rw [show (lowerText y).exception = y.exception from rfl, (h y hy).2.1] at hxe
    cases hxe
  exact this ▸ h3

/-! ### counterexamples and an example -/

/-- a request with capital letters in the host, and one with capital letters behind it -/
def exCapitalHost : Request := exRequest bs%"ADS.com" bs%"/" (some (bs%"image", FOImage)) none
def exCapitalPath : Request := exRequest bs%"b.com" bs%"/Banner" (some (bs%"image", FOImage)) none

theorem exCapitalHost_web : exCapitalHost.Web ∧ exCapitalHost.lowered.Web := by
  constructor <;> exact ⟨by decide +kernel, ⟨by decide +kernel, by decide +kernel⟩, .inr ⟨ch%'/', [], rfl, by decide +kernel⟩, by decide +kernel, by
    intro t h; cases h; decide +kernel⟩

theorem exCapitalPath_web : exCapitalPath.Web ∧ exCapitalPath.lowered.Web := by
  constructor
  · exact ⟨by decide +kernel, ⟨by decide +kernel, by decide +kernel⟩, .inr ⟨ch%'/', bs%"Banner", rfl, by decide +kernel⟩, by decide +kernel, by
      intro t h; cases h; decide +kernel⟩
  · exact ⟨by decide +kernel, ⟨by decide +kernel, by decide +kernel⟩, .inr ⟨ch%'/', bs%"banner", rfl, by decide +kernel⟩, by decide +kernel, by
      intro t h; cases h; decide +kernel⟩

/-- **C88** fails: capital letters in the host make a difference. -/
theorem C88_host_counterexample {E : Env} (hroll : ∀ url, E.fp.rolls url) : Answers E bs%"||ads.com^" false [] exCapitalHost false ∧
    Answers E bs%"||ads.com^" false [] exCapitalHost.lowered true :=
  ⟨answers_compared (v := false) (r := exAll) hroll (by decide +kernel) rfl (.inr (by decide +kernel)) (by decide +kernel) (by decide +kernel)
      exCapitalHost_web.1 (by decide +kernel),
    answers_compared (v := true) (r := exAll) hroll (by decide +kernel) rfl (.inr (by decide +kernel)) (by decide +kernel) (by decide +kernel)
      exCapitalHost_web.2 (by decide +kernel)⟩

/-- **C88** fails: so do capital letters behind the host; and the option `match-case`, which is to ask for this, makes a rule void. -/
theorem C88_path_counterexample {E : Env} (hroll : ∀ url, E.fp.rolls url) : Answers E bs%"banner" false [] exCapitalPath false ∧
    Answers E bs%"Banner" false [] exCapitalPath true ∧ Answers E bs%"Banner$match-case" false [] exCapitalPath false :=
  ⟨answers_compared (v := false) (r := { text := bs%"banner" }) hroll (by decide +kernel) rfl (.inl (by decide +kernel)) (by decide +kernel)
      (by decide +kernel) exCapitalPath_web.1 (by decide +kernel),
    answers_compared (v := true) (r := { text := bs%"Banner" }) hroll (by decide +kernel) rfl (.inl (by decide +kernel)) (by decide +kernel)
      (by decide +kernel) exCapitalPath_web.1 (by decide +kernel),
    answers_compared (v := false) (r := { text := bs%"Banner", options := some bs%"match-case" }) hroll (by decide +kernel) rfl
      (.inl (by decide +kernel)) (by decide +kernel) (by decide +kernel) exCapitalPath_web.1 (by decide +kernel)⟩

/-- **C88**, an example. -/
example {E : Env} (hroll : ∀ url, E.fp.rolls url) : Answers E bs%"||ads.com^\nbanner$image" true [] exCapitalPath.lowered true := by
  have hp : ∀ r ∈ [exAll, ({ text := bs%"Banner", options := some bs%"image" } : RuleText)], plainRule r = true := by decide +kernel
  have hp' : ∀ r ∈ [exAll, ({ text := bs%"Banner", options := some bs%"image" } : RuleText)].map lowerText, plainRule r = true := by decide +kernel
  have hA := lists_rules (E := E) (plainRules_sound hp) (by simp)
  have hB := lists_rules (E := E) (plainRules_sound hp') (by simp)
  have hq := plainRules_askable hroll hp exCapitalPath_web.1
  refine C88_lower_partial hA hB ?_ ?_ false true [] hq (plainRules_askable hroll hp' exCapitalPath_web.2) ?_
  · intro r hr
    simp only [List.mem_cons, List.not_mem_nil, or_false] at hr
    rcases hr with rfl | rfl <;> exact ⟨rfl, rfl, by decide +kernel, by decide +kernel, by decide +kernel⟩
  · intro r hr
    simp only [List.mem_cons, List.not_mem_nil, or_false] at hr
    rcases hr with rfl | rfl
    · exact ⟨fun _ => ⟨by decide +kernel, [], _, rfl, by simp⟩, .inl (by decide +kernel)⟩
    · exact ⟨fun h => absurd h (by decide +kernel), .inl (by decide +kernel)⟩
  · obtain ⟨b, h1, h2⟩ := answers_iff hA false [] hq
    have : b = true := by
      rw [h2]
      refine ⟨⟨_, List.mem_cons_of_mem _ List.mem_cons_self, rfl,
        reliable_counted ⟨fun h => absurd h (by decide +kernel), .inl (by decide +kernel)⟩ _,
        (applies_compared (v := true) (by decide +kernel) exCapitalPath_web.1 (by decide +kernel) (by decide +kernel) []).2 rfl⟩, ?_⟩
      rintro ⟨x, hx, hxe, -⟩
      simp only [List.mem_cons, List.not_mem_nil, or_false] at hx
      rcases hx with rfl | rfl <;> cases hxe
    exact this ▸ h1

end AdBlock
