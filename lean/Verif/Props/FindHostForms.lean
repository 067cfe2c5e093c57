import Verif.Props.FindRequestLaws
/-
A star behind a host, and `findMatchingFilters` (C113).
-/
namespace AdBlock
open Spec

/-- **C113**, as far as it holds: a `*` behind the `^` makes no difference, if the host has a dot and no other rule of the kind consists of it. (Other
than for `matches`, rules with `domain=` are no problem, see C98.) -/
theorem C113_star_partial {E : Env} {A B : Bytes} {before after : List RuleText} {r : RuleText} (hA : Lists E A (before ++ r :: after))
    (hB : Lists E B (before ++ withStar r :: after)) (hw : WholeHost r) (hdot : ch%'.' ∈ r.hostPart)
    (hone : ∀ x ∈ before ++ after, ¬ (x.HostOnly ∧ x.exception = r.exception ∧ x.hostPart = r.hostPart))
    (preserve preserve' : Bool) (tags : List Bytes) {q : Request} (hq : q.Web) (hs : Spec.Comparable (before ++ r :: after) q) :
    ∃ b, Finds E A preserve tags q b ∧ Finds E B preserve' tags q b := by
  obtain ⟨hno, hsafe, happ⟩ := withStar_facts hw hq tags
  have hmem : ∀ {x y : RuleText}, x ∈ before ++ y :: after → x = y ∨ x ∈ before ++ after := by
    intro x y hx
    simp only [List.mem_append, List.mem_cons] at hx ⊢
    rcases hx with hx | rfl | hx
    · exact .inr (.inl hx)
    · exact .inl rfl
    · exact .inr (.inr hx)
  have hin : ∀ {x y : RuleText}, x ∈ before ++ after → x ∈ before ++ y :: after := by
    intro x y hx
    simp only [List.mem_append, List.mem_cons] at hx ⊢
    rcases hx with hx | hx
    · exact .inl hx
    · exact .inr (.inr hx)
  have hs' : Spec.Comparable (before ++ withStar r :: after) q := by
    refine ⟨fun x hx => ?_⟩
    rcases hmem hx with rfl | hx
    · exact hsafe
    · exact hs.inBounds x (hin hx)
  have key : ∀ x ∈ before ++ after, HostCounted (before ++ r :: after) q x ↔ HostCounted (before ++ withStar r :: after) q x := by
    intro x hx
    by_cases hh : x.HostOnly
    · rw [hostCounted_insert (r := r) (fun h => hone x hx (by rw [h]; exact ⟨hw.2.1, rfl, rfl⟩)) (fun _ y hy => hone y (List.mem_append_right _ hy)),
        hostCounted_insert (r := withStar r) (fun h => hno (h ▸ hh)) (fun h => absurd h hno)]
    · exact iff_of_true (fun h => absurd h hh) fun h => absurd h hh
  refine finds_same hA hB preserve preserve' hq hs hs' fun s => ⟨?_, ?_⟩
  · rintro ⟨x, hx, he, hx', ha⟩
    rcases hmem hx with rfl | hx
    · exact ⟨withStar x, by simp, he, fun h => absurd h hno, happ.2 ha⟩
    · exact ⟨x, hin hx, he, (key x hx).1 hx', ha⟩
  · rintro ⟨x, hx, he, hx', ha⟩
    rcases hmem hx with rfl | hx
    · exact ⟨r, by simp, he, fun _ => ⟨⟨before, after, rfl, fun x hx => hone x (List.mem_append_left _ hx)⟩, .inr hdot⟩, happ.1 ha⟩
    · exact ⟨x, hin hx, he, (key x hx).2 hx', ha⟩

/-- **C113** fails for hosts without a dot: with the star the rule holds for subdomains, without it does not (see C98). -/
theorem C113_dot_counterexample {E : Env} (hroll : ∀ url, E.fp.rolls url) :
    Finds E bs%"||intranet^" false [] { exIntranet with host := bs%"a.intranet" } false ∧
    Finds E bs%"||intranet^*" false [] { exIntranet with host := bs%"a.intranet" } true := by
  refine ⟨(C114_dot_counterexample hroll).2, ?_⟩
  have hweb : ({ exIntranet with host := bs%"a.intranet" } : Request).Web :=
    ⟨exIntranet_web.scheme, ⟨by decide +kernel, by decide +kernel⟩, exIntranet_web.rest, ⟨by decide +kernel, exIntranet_web.text.2⟩, exIntranet_web.type⟩
  have hl : Lists E bs%"||intranet^*" [withStar exNoDot] := lists_rules (rs := [withStar exNoDot]) (okRules_sound (by decide +kernel)) (by simp)
  have hq : Askable E [withStar exNoDot] { exIntranet with host := bs%"a.intranet" } :=
    wholeHosts_askable hroll (by simpa using .inr ⟨_, exNoDot_whole, rfl⟩) (by decide +kernel) hweb
  obtain ⟨b, h1, h2⟩ := finds_iff hl false [] hweb hq.safe
  obtain ⟨b', h3, h4⟩ := answers_iff hl false [] hq
  have hb : b' = true := answers_unique h3 (C98_dot_counterexample hroll).2
  obtain ⟨⟨r, hr, he, hc, ha⟩, hn⟩ := h4.1 hb
  have : b = true := h2.2 ⟨⟨r, hr, he, hc.host, ha⟩, fun ⟨x, hx, hxe, _⟩ => by rw [List.mem_singleton.1 hx] at hxe; cases hxe⟩
  exact this ▸ h1

/-- **C113**, an example: a star behind a host, for a rule with a domain. -/
example {E : Env} (hroll : ∀ url, E.fp.rolls url) : ∃ b, Finds E bs%"-banner\n||ads.com^$domain=news.com" false [] exAds b ∧
    Finds E bs%"-banner\n||ads.com^*$domain=news.com" false [] exAds b := by
  let r : RuleText := { anchor := .host, text := bs%"ads.com^", options := some bs%"domain=news.com" }
  have hp : ∀ x ∈ [({ text := bs%"-banner" } : RuleText), r], plainRule x = true := by decide +kernel
  refine C113_star_partial (before := [{ text := bs%"-banner" }]) (after := []) (r := r) (lists_rules (plainRules_sound hp) (by simp))
    (lists_rules (rs := [{ text := bs%"-banner" }, withStar r]) (okRules_sound (by decide +kernel)) (by simp)) ⟨rfl, by decide +kernel⟩
    (by decide +kernel) (fun x hx h => ?_) false false [] exAds_web (plainRules_askable (E := E) hroll hp exAds_web).safe
  rw [List.append_nil, List.mem_singleton] at hx
  rw [hx] at h
  exact absurd h.1 (by decide +kernel)

end AdBlock
