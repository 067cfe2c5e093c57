import Verif.Props.Locality
/-
Rules covered by others can be left out.
-/
namespace AdBlock
open Spec

theorem moreGeneral_length {t s : Bytes} (h : MoreGeneral t s) : t.length = s.length := by
  induction h with
  | nil => rfl
  | same _ ih => simp [ih]
  | caret _ _ ih => simp [ih]

theorem moreGeneral_at {t s : Bytes} (h : MoreGeneral t s) {u : Bytes} (hu : PartAt s u) : PartAt t u := by
  induction h generalizing u with
  | nil => exact trivial
  | @same c t s hg ih =>
    cases u with
    | nil =>
      obtain ⟨h1, h2⟩ := hu
      subst h2
      cases hg
      exact ⟨h1, rfl⟩
    | cons d u => exact ⟨hu.1, ih hu.2⟩
  | @caret c t s hc hg ih =>
    cases u with
    | nil =>
      obtain ⟨h1, h2⟩ := hu
      subst h2
      cases hg
      exact ⟨rfl, rfl⟩
    | cons d u =>
      refine ⟨.inr ⟨rfl, ?_⟩, ih hu.2⟩
      rcases hu.1 with h | h
      · exact h ▸ hc
      · exact h.2

/-- Text that is literally there is matched. -/
theorem partAt_self_append (p r : Bytes) : PartAt p (p ++ r) := by
  induction p with
  | nil => exact trivial
  | cons c p ih => exact ⟨.inl rfl, ih⟩

theorem partAt_prefix {p r u : Bytes} (h : PartAt (p ++ r) u) : PartAt p u := by
  induction p generalizing u with
  | nil => exact trivial
  | cons c p ih =>
    cases u with
    | nil =>
      obtain ⟨h1, h2⟩ := h
      exact ⟨h1, (List.append_eq_nil_iff.1 h2).1⟩
    | cons d u => exact ⟨h.1, ih h.2⟩

theorem partAt_drop {p r u : Bytes} (hr : r ≠ []) (h : PartAt (p ++ r) u) : PartAt r (u.drop p.length) := by
  induction p generalizing u with
  | nil => exact h
  | cons c p ih =>
    cases u with
    | nil => exact absurd (List.append_eq_nil_iff.1 h.2).2 hr
    | cons d u => exact ih h.2

theorem placed_single {t u : Bytes} (hs : ch%'*' ∉ t) (hne : t ≠ []) : Placed t u ↔
    t ≠ bs%"^" ∧ t.length ≤ u.length ∧ ∃ k, k < u.length ∧ PartAt t (u.drop k) := by
  unfold Placed
  rw [splitOn_of_not_mem hs]
  simp only [PlacedParts, hne, false_and, false_or, and_true]

theorem moreGeneral_star {t s : Bytes} (h : MoreGeneral t s) (hs : ch%'*' ∉ s) : ch%'*' ∉ t := by
  induction h with
  | nil => simp
  | same _ ih =>
    simp only [List.mem_cons, not_or] at hs ⊢
    exact ⟨hs.1, ih hs.2⟩
  | caret _ _ ih =>
    simp only [List.mem_cons, not_or] at hs ⊢
    exact ⟨by decide, ih hs.2⟩

/-- The search for a part of the text succeeds if the one for the whole text does. -/
theorem placed_part {t t' u : Bytes} (h : PartOf t t') (ht : Placed t' u) : Placed t u := by
  obtain ⟨hne, hc, a, s, b, rfl, hs, hg⟩ := h
  have hsne : s ≠ [] := by rintro rfl; cases hg; exact hne rfl
  have hlen := moreGeneral_length hg
  obtain ⟨p, hp, hi⟩ := infix_part (d := a ++ s ++ b) (w := s) ⟨a, b, rfl⟩ hs
  obtain ⟨x, y, rfl⟩ := hi
  have key : ∀ ps : List Bytes, ∀ u, x ++ s ++ y ∈ ps → PlacedParts ps u →
      s.length ≤ u.length ∧ ∃ k, PartAt s (u.drop k) := by
    intro ps
    induction ps with
    | nil => intro u h; cases h
    | cons q ps ih =>
      intro u hm hpl
      rcases hpl with ⟨h1, h2⟩ | ⟨-, h1, k, -, h2, h3⟩
      · subst h1 h2
        rcases List.mem_cons.1 hm with h | h
        · exact absurd (List.append_eq_nil_iff.1 (List.append_eq_nil_iff.1 h).1).2 hsne
        · cases h
      · rcases List.mem_cons.1 hm with h | h
        · subst h
          refine ⟨by simp only [List.length_append] at h1; omega, k + x.length, ?_⟩
          rw [← List.drop_drop]
          exact partAt_drop hsne (partAt_prefix h2)
        · obtain ⟨h4, j, h5⟩ := ih _ h h3
          rw [List.drop_drop] at h5
          exact ⟨by rw [List.length_drop] at h4; omega, _, h5⟩
  obtain ⟨h1, k, h2⟩ := key _ _ hp ht
  rw [placed_single (moreGeneral_star hg hs) hne]
  refine ⟨hc, by omega, k, ?_, moreGeneral_at hg h2⟩
  have h3 := moreGeneral_at hg h2
  refine Nat.lt_of_not_le fun hk => ?_
  rw [List.drop_of_length_le hk] at h3
  cases t with
  | nil => exact hne rfl
  | cons c t =>
    obtain ⟨rfl, rfl⟩ := h3
    exact hc rfl

/-- Likewise if the whole text is literally part of the address. -/
theorem placed_literal {t t' u : Bytes} (h : PartOf t t') (ht : t' <:+: u) : Placed t u := by
  obtain ⟨hne, hc, a, s, b, rfl, hs, hg⟩ := h
  obtain ⟨x, y, rfl⟩ := ht
  have hlen := moreGeneral_length hg
  have hpos : 0 < t.length := List.length_pos_iff.2 hne
  rw [placed_single (moreGeneral_star hg hs) hne]
  refine ⟨hc, by simp only [List.length_append]; omega, (x ++ a).length, by simp only [List.length_append]; omega, moreGeneral_at hg ?_⟩
  rw [show x ++ (a ++ s ++ b) ++ y = (x ++ a) ++ (s ++ (b ++ y)) by simp only [List.append_assoc], List.drop_left]
  exact partAt_self_append _ _

theorem sameSite_trans {a b c : Bytes} (h : SameSite a b) (h' : SameSite b c) : SameSite a c := by
  rcases h with rfl | ⟨x, rfl⟩
  · exact h'
  · rcases h' with rfl | ⟨y, rfl⟩
    · exact .inr ⟨x, rfl⟩
    · exact .inr ⟨y ++ ch%'.' :: x, by simp⟩

/-- The covering rule applies to whatever the covered one applies to. -/
theorem covering_applies {r₀ r : RuleText} (h : Covering r₀ r) {tags : List Bytes} {q : Request} (hr : r.AppliesTo tags q) : r₀.AppliesTo tags q := by
  obtain ⟨h1, h2, h3, h4, h5⟩ := hr
  have hfit : r₀.AddressFits q := by
    unfold RuleText.AddressFits at h5 ⊢
    rw [h.bars.2]
    have hplaced : Placed r₀.text q.url := by
      cases ha : r.anchor <;> cases hb : r.rightBar <;> simp only [ha, hb] at h5
      · exact placed_part h.text h5
      · exact placed_literal h.text h5.isInfix
      · exact placed_literal h.text h5.isInfix
      · exact placed_literal h.text (h5 ▸ List.infix_rfl)
      · exact placed_part h.text h5.2
      · exact placed_literal h.text h5.isInfix
    cases ha : r₀.anchor with
    | none => exact hplaced
    | left => exact absurd ha h.bars.1
    | host =>
      obtain ⟨h6, h7, h8⟩ := h.host ha
      simp only [h6, h7] at h5
      exact ⟨sameSite_trans h8 h5.1, hplaced⟩
  rcases h.options with he | ⟨he, hdoc⟩
  · refine ⟨by rw [he]; exact h1, ?_, ?_, ?_, hfit⟩
    · have e1 : r₀.types = r.types := List.filter_congr fun t _ => decide_eq_decide.2 (by unfold RuleText.Says; rw [he])
      have e2 : r₀.notTypes = r.notTypes := List.filter_congr fun t _ => decide_eq_decide.2 (by unfold RuleText.Denies; rw [he])
      have e3 : r₀.TakenForType ↔ r.TakenForType := by unfold RuleText.TakenForType RuleText.Says; rw [he]
      unfold RuleText.TypeAllowed at h2 ⊢
      rw [e1, e2]
      simpa only [e3] using h2
    · unfold RuleText.PageAllowed RuleText.Says RuleText.Denies RuleText.value at h3 ⊢
      simpa only [he] using h3
    · unfold RuleText.TagEnabled RuleText.value at h4 ⊢
      simpa only [he] using h4
  · have hs : ∀ n, ¬ r₀.Says n := by simp [RuleText.Says, he]
    have hd : ∀ n, ¬ r₀.Denies n := by simp [RuleText.Denies, he]
    have ht : r₀.types = [] := by simp [RuleText.types, hs]
    have hn : r₀.notTypes = [] := by simp [RuleText.notTypes, hd]
    have hk : ¬ r₀.TakenForType := by simp [RuleText.TakenForType, hs]
    refine ⟨by simp [he], ?_, ?_, by simp [RuleText.TagEnabled, RuleText.value, he], hfit⟩
    · unfold RuleText.TypeAllowed at h2 ⊢
      cases hty : q.type with
      | none => exact ⟨ht, fun _ => hn, fun _ => hk⟩
      | some t =>
        rw [hty] at h2
        refine ⟨.inr ⟨ht, hk⟩, by simp [hn], fun hd' => absurd ?_ hdoc⟩
        have h6 := h2.2.2 hd'
        unfold RuleText.types at h6
        simpa [hd'] using (List.mem_filter.1 h6).2
    · exact fun _ _ => ⟨fun h => absurd h (hs _), fun h => absurd h (hd _), fun dl h => by simp [RuleText.value, he] at h⟩

/-- A reliable rule is taken into account. -/
theorem reliable_counted {bad : List Bytes} {rs : List RuleText} {r : RuleText} (h : Reliable bad rs r) (q : Request) : Counted bad rs q r := by
  have hno : ∀ dl, ¬ ByDomain bad r dl := by
    rintro dl ⟨h1, -, h2⟩
    rcases h.domains with h3 | h3
    · rw [h3] at h1; cases h1
    · exact h2 h3
  rw [counted_gate]
  exact ⟨fun hh => ⟨(h.host hh).2, .inr (h.host hh).1⟩, fun ⟨dl, hd, _⟩ => absurd hd (hno dl), fun ⟨dl, hd, _⟩ => absurd hd (hno dl)⟩

/-- **C87**, as far as it holds: a rule that is covered by another of the list may be left out, unless one of the two is one that a known
defect is to do with. -/
theorem C87_covered_partial {E : Env} {A B : Bytes} {before after : List RuleText} {r₀ r : RuleText} (hA : Lists E A (before ++ after))
    (hB : Lists E B (before ++ r :: after)) (h₀ : r₀ ∈ before ++ after) (hcov : Covering r₀ r) (hrel : Reliable E.bad (before ++ after) r₀)
    {q : Request} (hm : ¬ Meddles E.bad r after q) (preserve preserve' : Bool) (tags : List Bytes) (hq : Askable E (before ++ r :: after) q) :
    ∃ b, Answers E A preserve tags q b ∧ Answers E B preserve' tags q b := by
  have hsub : ∀ x ∈ before ++ after, x ∈ before ++ r :: after := by
    intro x hx
    simp only [List.mem_append, List.mem_cons] at hx ⊢
    rcases hx with hx | hx <;> simp [hx]
  have hcount : ∀ x, x ≠ r → (Counted E.bad (before ++ r :: after) q x ↔ Counted E.bad (before ++ after) q x) := by
    intro x hne
    rw [counted_gate, counted_gate, gate_insert hm, hostCounted_insert hne]
    intro hh y hy hk
    exact hm (.inl ⟨hh, y, hy, hk⟩)
  have h1 : Counted E.bad (before ++ after) q r₀ := reliable_counted hrel q
  have h2 : Counted E.bad (before ++ r :: after) q r₀ := by
    by_cases hne : r₀ = r
    · subst hne
      rw [counted_gate, hostCounted_find] at h1 ⊢
      refine ⟨fun hh => ⟨?_, (h1.1 hh).2⟩, h1.2.1, fun hd => fun hg => h1.2.2 hd ((gate_insert hm _).1 hg)⟩
      have h3 := (h1.1 hh).1
      rw [List.find?_append] at h3 ⊢
      rw [List.find?_cons, show likeHost r₀ r₀ = true by simp [likeHost, hh]]
      cases hb : before.find? (likeHost r₀) with
      | none => rfl
      | some y => rw [hb] at h3; exact h3
    · exact (hcount r₀ hne).2 h1
  refine answers_same hA hB preserve preserve' (askable_subset hq hsub) hq fun s => ⟨?_, ?_⟩
  · rintro ⟨x, hx, he, hc, ha⟩
    by_cases hne : x = r
    · subst hne
      exact ⟨r₀, hsub r₀ h₀, hcov.kind.trans he, h2, covering_applies hcov ha⟩
    · exact ⟨x, hsub x hx, he, (hcount x hne).2 hc, ha⟩
  · rintro ⟨x, hx, he, hc, ha⟩
    by_cases hne : x = r
    · subst hne
      exact ⟨r₀, h₀, hcov.kind.trans he, h1, covering_applies hcov ha⟩
    · refine ⟨x, ?_, he, (hcount x hne).1 hc, ha⟩
      simp only [List.mem_append, List.mem_cons] at hx ⊢
      rcases hx with hx | hx | hx
      · exact .inl hx
      · exact absurd hx hne
      · exact .inr hx

/-- **C85**, as far as it holds: nothing is blocked either if each rule of a list, repeated as an exception, would be covered by an exception
of the list that no known defect is to do with. -/
theorem C85_covered_partial {E : Env} {A : Bytes} {rs : List RuleText} (hA : Lists E A rs)
    (h : ∀ r ∈ rs, r.exception = false → ∃ e ∈ rs, Covering e (asException r) ∧ Reliable E.bad rs e) (preserve : Bool) (tags : List Bytes)
    {q : Request} (hq : Askable E rs q) : Answers E A preserve tags q false := by
  obtain ⟨b, h1, h2⟩ := answers_iff hA preserve tags hq
  cases b with
  | false => exact h1
  | true =>
    exfalso
    obtain ⟨⟨r, hr, he, -, ha⟩, hno⟩ := h2.1 rfl
    obtain ⟨e, hm, hcov, hrel⟩ := h r hr he
    exact hno ⟨e, hm, hcov.kind, reliable_counted hrel q, covering_applies hcov ha⟩

/-! ### a counterexample and an example -/

def exScripts : RuleText := { anchor := .host, text := bs%"ads.com^", options := some bs%"script" }
def exAll : RuleText := { anchor := .host, text := bs%"ads.com^" }
def exRoot : RuleText := { anchor := .host, text := bs%"ads.com/" }

theorem exAll_covers : Covering exAll exRoot :=
  ⟨rfl, ⟨by decide, by decide, [], bs%"ads.com/", [], rfl, by decide,
    .same (.same (.same (.same (.same (.same (.same (.caret (by decide +kernel) .nil)))))))⟩, ⟨by decide, rfl⟩,
    fun _ => ⟨rfl, rfl, .inl (by decide +kernel)⟩, .inl (by decide +kernel)⟩

/-- **C87** fails if the covering rule is one that is not kept (C52): `||ads.com/` is covered by `||ads.com^`, but this comes after another
rule for the host. -/
theorem C87_host_counterexample {E : Env} (hroll : ∀ url, E.fp.rolls url) : Answers E bs%"||ads.com^$script\n||ads.com^" false [] exAds false ∧
    Answers E bs%"||ads.com^$script\n||ads.com^\n||ads.com/" false [] exAds true := by
  have hp : ∀ r ∈ [exScripts, exAll, exRoot], plainRule r = true ∧ (r.filter false).tag = [] ∧ r.exception = false ∧ r.value bs%"domain=" = none := by
    decide +kernel
  have hp2 : ∀ r ∈ [exScripts, exAll], plainRule r = true := by decide +kernel
  constructor
  · obtain ⟨b, h1, h2⟩ := answers_iff (lists_rules (E := E) (plainRules_sound hp2) (by simp)) false [] (plainRules_askable hroll hp2 exAds_web)
    cases b with
    | false => exact h1
    | true =>
      exfalso
      obtain ⟨⟨r, hr, -, hc, ha⟩, -⟩ := h2.1 rfl
      simp only [List.mem_cons, List.not_mem_nil, or_false] at hr
      rcases hr with rfl | rfl
      · rw [applies_compared (v := false) (by decide +kernel) exAds_web (by decide +kernel) (by decide +kernel)] at ha
        cases ha
      · rw [counted_gate, hostCounted_find] at hc
        have h3 := (hc.1 (by decide +kernel)).1
        rw [show [exScripts, exAll].find? (likeHost exAll) = some exScripts from rfl, Option.some.injEq] at h3
        exact absurd (congrArg RuleText.options h3) (by decide)
  · have hp' : ∀ r ∈ [exScripts, exAll, exRoot], plainRule r = true := fun r hr => (hp r hr).1
    obtain ⟨b, h1, h2⟩ := answers_iff (lists_rules (E := E) (plainRules_sound hp') (by simp)) false [] (plainRules_askable hroll hp' exAds_web)
    have : b = true := by
      rw [h2]
      refine ⟨⟨exRoot, by simp, rfl, reliable_counted ⟨fun h => absurd h (by decide +kernel), .inl (by decide +kernel)⟩ _,
        (applies_compared (v := true) (by decide +kernel) exAds_web (by decide +kernel) (by decide +kernel) []).2 rfl⟩, ?_⟩
      rintro ⟨r, hr, he, -⟩
      rw [(hp r hr).2.2.1] at he
      cases he
    exact this ▸ h1

/-- **C87**, an example: with the covering rule first, nothing changes. -/
example {E : Env} (hroll : ∀ url, E.fp.rolls url) : ∃ b, Answers E bs%"||ads.com^\n-banner" false [] exAds b ∧
    Answers E bs%"||ads.com^\n||ads.com/\n-banner" false [] exAds b :=
  C87_covered_partial (before := [exAll]) (after := [{ text := bs%"-banner" }]) (r := exRoot)
    (lists_rules (plainRules_sound (by decide +kernel)) (by simp)) (lists_rules (plainRules_sound (by decide +kernel)) (by simp))
    List.mem_cons_self exAll_covers ⟨fun _ => ⟨by decide +kernel, [], _, rfl, by simp⟩, .inl (by decide +kernel)⟩
    (by
      rintro (h | ⟨-, dl, h, -⟩)
      · exact absurd h.1 (by decide +kernel)
      · exact absurd (h.1.symm.trans (by decide +kernel : _ = none)) (by simp))
    false false [] (plainRules_askable hroll (by decide +kernel) exAds_web)

/-- **C85**, an example: the exception for the host covers both rules. -/
example {E : Env} (hroll : ∀ url, E.fp.rolls url) : Answers E bs%"||ads.com^$script\n||ads.com/\n@@||ads.com^" false [] exAds false := by
  have hp : ∀ r ∈ [exScripts, exRoot, asException exAll], plainRule r = true := by decide +kernel
  refine C85_covered_partial (lists_rules (plainRules_sound hp) (by simp)) (fun r hr he => ⟨asException exAll, by simp, ?_, fun _ => ⟨by decide +kernel,
    [exScripts, exRoot], [], rfl, ?_⟩, .inl (by decide +kernel)⟩) false [] (plainRules_askable hroll hp exAds_web)
  · simp only [List.mem_cons, List.not_mem_nil, or_false] at hr
    rcases hr with rfl | rfl | rfl
    · exact ⟨rfl, ⟨by decide, by decide, [], bs%"ads.com^", [], rfl, by decide, .same (.same (.same (.same (.same (.same (.same (.same .nil)))))))⟩,
        ⟨by decide, rfl⟩, fun _ => ⟨rfl, rfl, .inl (by decide +kernel)⟩, .inr ⟨by decide +kernel, by decide +kernel⟩⟩
    · exact ⟨rfl, exAll_covers.text, exAll_covers.bars, exAll_covers.host, exAll_covers.options⟩
    · cases he
  · intro r hr
    simp only [List.mem_cons, List.not_mem_nil, or_false] at hr
    rcases hr with rfl | rfl <;> exact fun h => absurd h.2.1 (by decide)

end AdBlock
