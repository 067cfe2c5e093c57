import Verif.SpecFindExact
import Verif.Props.NodeFind
import Verif.Props.Exact
/-
In which order `findMatchingFilters` searches the lists, and hence when it comes upon a rule that consists of a host.
-/
namespace AdBlock
open Spec

section
variable {E : Env} {c : Client E} {fs : List Filter} {url : Bytes} {co ctx : Mask} {dom : Option Bytes}

/-- In which order the lists are searched. -/
theorem find_order (hold : c.Holds fs) (hr : c.Ready) (hctx : resolveContext url co dom = ctx) {r : Found}
    (h : c.findMatchingFilters url co dom = .ok r) :
    (∀ f, r.filter = some f → has f.filterType FTHostOnly = true →
      ∀ g, g ∈ c.lists (domList false) ∨ g ∈ c.lists (antiList false) ∨ g ∈ c.lists (plainList false) ∨ g ∈ c.lists (fpList false) →
        ¬ Acts c.tags url ctx dom g) ∧
    (∀ e, r.exception = some e → has e.filterType FTHostOnly = true →
      ∀ g, g ∈ c.lists (domList true) ∨ g ∈ c.lists (antiList true) ∨ g ∈ c.lists (plainList true) → ¬ Acts c.tags url ctx dom g) ∧
    (∀ e, r.exception = some e → has e.filterType FTHostOnly = false → HasFingerprint E.bad e → ∀ t d f, c.hs true = some t →
      d ∈ hostLookups (getUrlHost url) → t.find (E.hash d) (fun f => hostKey f == d) = some f →
        ¬ Acts c.tags url ctx dom f ∧ ∃ b, f.matches url ctx dom none = .ok b) := by
  rw [find_eq, hctx] at h
  obtain ⟨r1, e1, h⟩ := Res.bind_eq_ok.1 h
  obtain ⟨mf, e2, h⟩ := Res.bind_eq_ok.1 h
  obtain ⟨a1, a2⟩ := firstInLists_ok e1
  have first : ∀ f, mf = some f → has f.filterType FTHostOnly = true →
      ∀ g, g ∈ c.lists (domList false) ∨ g ∈ c.lists (antiList false) ∨ g ∈ c.lists (plainList false) ∨ g ∈ c.lists (fpList false) →
        ¬ Acts c.tags url ctx dom g := by
    rintro f hf hh g hg ha
    cases hr1 : r1 with
    | some f' =>
      rw [hr1] at e2
      cases e2
      cases hf
      obtain ⟨l, hl, hfl, -⟩ := a1 f hr1
      have : has f.filterType FTHostOnly = false := by
        simp only [List.mem_cons, List.not_mem_nil, or_false] at hl
        rcases hl with rfl | rfl | rfl | rfl
        · exact (listed_not_host hold (s := false) (.inr (.inr (.inl rfl))) hfl).2.2
        · exact (listed_not_host hold (s := false) (.inl rfl) hfl).2.2
        · exact (listed_not_host hold (s := false) (.inr (.inl rfl)) hfl).2.2
        · exact (listed_not_host hold (s := false) (.inr (.inr (.inr rfl))) hfl).2.2
      rw [hh] at this
      cases this
    | none =>
      have hno : ∀ l ∈ [c.lists .noFp, c.lists .noFpDomain, c.lists .noFpAntiDomain, c.lists .filters], g ∉ l :=
        fun l hl hgl => a2 hr1 l hl g hgl ⟨ha.1, (tagOk_iff _ _).2 ha.2⟩
      rcases hg with hg | hg | hg | hg
      · exact hno (c.lists .noFpDomain) (by simp) hg
      · exact hno (c.lists .noFpAntiDomain) (by simp) hg
      · exact hno (c.lists .noFp) (by simp) hg
      · exact hno (c.lists .filters) (by simp) hg
  cases mf with
  | none => cases h; exact ⟨by simp, by simp, by simp⟩
  | some f =>
    simp only at h
    obtain ⟨x1, e3, h⟩ := Res.bind_eq_ok.1 h
    obtain ⟨x2, e4, h⟩ := Res.bind_eq_ok.1 h
    obtain ⟨x3, e5, h⟩ := Res.bind_eq_ok.1 h
    cases h
    obtain ⟨b1, b2⟩ := firstInLists_ok e3
    have hx1 : ∀ e, x1 = some e → has e.filterType FTHostOnly = false ∧ ¬ HasFingerprint E.bad e := by
      intro e he
      obtain ⟨l, hl, hel, -⟩ := b1 e he
      have un : Unindexed E.bad true e := by
        simp only [List.mem_cons, List.not_mem_nil, or_false] at hl
        rcases hl with rfl | rfl | rfl
        · obtain ⟨hm, hc⟩ := hold.mem.1 hel
          exact ((in_plainList (hold.index.parsed e hm) (hold.index.classified e hm) true).1 hc).2.1
        · obtain ⟨hm, hc⟩ := hold.mem.1 hel
          exact ((in_domList (hold.index.parsed e hm) (hold.index.classified e hm) true).1 hc).2.1
        · obtain ⟨hm, hc⟩ := hold.mem.1 hel
          exact ((in_antiList (hold.index.parsed e hm) (hold.index.classified e hm) true).1 hc).2.1
      exact ⟨un.2.1, un.2.2⟩
    refine ⟨fun f' hf' => by cases hf'; exact first f rfl, fun e he hh g hg ha => ?_, fun e he hh hfp t d f ht hd hf => ?_⟩
    · cases h1 : x1 with
      | some e' =>
        rw [h1] at e4
        cases e4
        cases e5
        cases he
        rw [(hx1 e h1).1] at hh
        cases hh
      | none =>
        have hno : ∀ l ∈ [c.lists .noFpException, c.lists .noFpDomainException, c.lists .noFpAntiDomainException], g ∉ l :=
          fun l hl hgl => b2 h1 l hl g hgl ⟨ha.1, (tagOk_iff _ _).2 ha.2⟩
        rcases hg with hg | hg | hg
        · exact hno (c.lists .noFpDomainException) (by simp) hg
        · exact hno (c.lists .noFpAntiDomainException) (by simp) hg
        · exact hno (c.lists .noFpException) (by simp) hg
    · cases h1 : x1 with
      | some e' =>
        rw [h1] at e4
        cases e4
        cases e5
        cases he
        exact absurd hfp (hx1 e h1).2
      | none =>
        rw [h1] at e4
        obtain ⟨sr, e6, e7⟩ := Res.map_eq_ok.1 e4
        obtain ⟨-, -, m3⟩ := hostMiss_ok (s := true) (hr.hs true) e6
        subst e7
        cases h2 : sr.found with
        | none => exact m3 h2 t d f ht hd hf
        | some e' =>
          rw [h2] at e5
          cases e5
          cases he
          have ht' : c.hostExceptionSet = some t := ht
          rw [ht'] at e6
          simp only [isHostAnchoredHashSetMiss] at e6
          obtain ⟨o, ho, e6⟩ := Res.bind_eq_ok.1 e6
          cases e6
          obtain ⟨⟨d', -, hfd⟩, -⟩ := (hostSetLookup_ok ho).1 e h2
          obtain ⟨g, -, hg, rfl⟩ := entry_is_host hold ht (find_mem hfd)
          have : has g.bare.filterType FTHostOnly = true := by simpa using hg.2.1
          rw [this] at hh
          cases hh

/-- The same by the rules loaded. -/
theorem found_order (hist : History E c fs) {r : Found} (h : c.findMatchingFilters url co dom = .ok r) :
    (∀ f, r.filter = some f → has f.filterType FTHostOnly = true → ∀ g ∈ fs, Kind false g → has g.filterType FTHostOnly = false →
      ¬ Acts c.tags url (resolveContext url co dom) dom g) ∧
    (∀ e, r.exception = some e → has e.filterType FTHostOnly = true → ∀ g ∈ fs, Kind true g → has g.filterType FTHostOnly = false →
      ¬ HasFingerprint E.bad g → ¬ Acts c.tags url (resolveContext url co dom) dom g) ∧
    (∀ e, r.exception = some e → has e.filterType FTHostOnly = false → HasFingerprint E.bad e → ∀ g ∈ fs, HostRule true g →
      Listed true fs url g → ¬ Acts c.tags url (resolveContext url co dom) dom g) := by
  have hold := history_holds hist
  rcases hold.ready with hr | ⟨rfl, _, hs, _⟩
  case inr =>
    exact ⟨by simp, by simp, by simp⟩
  obtain ⟨h1, h2, h3⟩ := find_order hold hr rfl h
  have unlisted : ∀ {s : Bool} {g : Filter}, g ∈ fs → Kind s g → has g.filterType FTHostOnly = false → ¬ HasFingerprint E.bad g →
      Acts c.tags url (resolveContext url co dom) dom g → g ∈ c.lists (domList s) ∨ g ∈ c.lists (antiList s) ∨ g ∈ c.lists (plainList s) := by
    intro s g hg hk hh hfp ha
    have hp := hold.index.parsed g hg
    have hcl := hold.index.classified g hg
    have hun : Unindexed E.bad s g := ⟨hk, hh, hfp⟩
    by_cases hpos : OnlyPositive g
    · exact .inl (hold.mem.2 ⟨hg, (in_domList hp hcl s).2 ⟨ha.supported, hun, hpos⟩⟩)
    by_cases hneg : OnlyNegative g
    · exact .inr (.inl (hold.mem.2 ⟨hg, (in_antiList hp hcl s).2 ⟨ha.supported, hun, hneg⟩⟩))
    · exact .inr (.inr (hold.mem.2 ⟨hg, (in_plainList hp hcl s).2 ⟨ha.supported, hun, hpos, hneg⟩⟩))
  refine ⟨fun f hf hh g hg hk hg' ha => ?_, fun e he hh g hg hk hg' hfp ha => ?_, fun e he hh hfp g hg hhr hlist ha => ?_⟩
  · by_cases hfp : HasFingerprint E.bad g
    · exact h1 f hf hh g (.inr (.inr (.inr (hold.mem.2 ⟨hg, (in_fpList (hold.index.parsed g hg) (hold.index.classified g hg) false).2
        ⟨ha.supported, hk, hg', hfp⟩⟩)))) ha
    · refine h1 f hf hh g ?_ ha
      rcases unlisted hg hk hg' hfp ha with h | h | h
      · exact .inl h
      · exact .inr (.inl h)
      · exact .inr (.inr (.inl h))
  · exact h2 e he hh g (unlisted hg hk hg' hfp ha) ha
  · obtain ⟨k1, k2⟩ := hlist hhr
    obtain ⟨t, ht⟩ := Option.isSome_iff_exists.1 (hr.hs true)
    have hfind := (host_find hold ht).2 ⟨g, hg, hhr, k1, rfl, rfl⟩
    obtain ⟨hn, b, hb⟩ := h3 e he hh hfp t _ _ ht ((mem_hostLookups _ _).2 k2) hfind
    have hb' := matches_bare (hold.index.parsed g hg) hb
    rw [ha.1] at hb'
    cases hb'
    exact hn ⟨hb, by simpa using ha.2⟩

end

/-- When it comes upon a rule that consists of a host. -/
theorem finds_host {E : Env} {c : Client E} {b : Book} {fs : List Filter} (h : InOrder c b fs) {q : Request} (hq : q.Web)
    (hsafe : Spec.Comparable b.rules q) {found : Found} (hf : c.findMatchingFilters q.url q.context q.domain = .ok found) :
    FindsHost E.bad b q ↔ ∃ f, (found.filter = some f ∨ found.exception = some f) ∧ has f.filterType FTHostOnly = true := by
  obtain ⟨found', hf', hv⟩ := inOrder_find h hq hsafe
  rw [hf] at hf'
  cases hf'
  obtain ⟨o1, o2⟩ := found_from h.hist hf
  obtain ⟨k1, k2, k3⟩ := found_order h.hist hf
  have kindOf : ∀ {f : Filter} {r : RuleText} {pr : Bool}, CopyOf f (r.filter pr) → (has f.filterType FTHostOnly = true ↔ r.HostOnly) := by
    intro f r pr hc
    rw [show f.filterType = (r.filter pr).filterType by rcases hc with rfl | ⟨pat, -, rfl⟩ <;> rfl]
    exact hostOnly_bit r pr
  have first : (∃ f, found.filter = some f ∧ has f.filterType FTHostOnly = true) ↔ HostApplies b false q ∧
      ¬ b.CountedRule (fun r => ¬ r.HostOnly) false q := by
    constructor
    · rintro ⟨f, hff, hh⟩
      obtain ⟨r, m1, m2, m3, m4, pr, m5⟩ := hv.isRule f hff
      refine ⟨⟨r, m1, m2, ⟨(kindOf m5).1 hh, m3⟩, m4⟩, ?_⟩
      rintro ⟨r', n1, n2, n3, n4⟩
      obtain ⟨pr', a1, a2, -, -, a5⟩ := acts_of_counted h hq hsafe n1 n4 fun h => absurd h n3
      rw [n2] at a2
      exact k1 f hff hh _ a1 a2 (by rw [← Bool.not_eq_true, hostOnly_bit]; exact n3) a5
    · rintro ⟨⟨r, m1, m2, m3, m4⟩, hn⟩
      obtain ⟨f, hff⟩ := Option.ne_none_iff_exists'.1 (hv.matched.2 ⟨r, m1, m2, m3.2, m4⟩)
      refine ⟨f, hff, Classical.byContradiction fun hh => hn ?_⟩
      obtain ⟨r', n1, n2, n3, n4, pr, n5⟩ := hv.isRule f hff
      exact ⟨r', n1, n2, fun h => hh ((kindOf n5).2 h), n4⟩
  have second : (∃ e, found.exception = some e ∧ has e.filterType FTHostOnly = true) ↔
      b.CountedRule (HostCounted b.rules q) false q ∧ HostApplies b true q ∧
      ¬ b.CountedRule (fun r => ¬ r.HostOnly ∧ ¬ r.Indexable E.bad) true q := by
    constructor
    · rintro ⟨e, hee, hh⟩
      obtain ⟨r, m1, m2, m3, m4, pr, m5⟩ := hv.isException e hee
      refine ⟨(hv.excepted.1 (by simp [hee])).1, ⟨r, m1, m2, ⟨(kindOf m5).1 hh, m3⟩, m4⟩, ?_⟩
      rintro ⟨r', n1, n2, n3, n4⟩
      obtain ⟨pr', a1, a2, -, -, a5⟩ := acts_of_counted h hq hsafe n1 n4 fun h => absurd h n3.1
      rw [n2] at a2
      exact k2 e hee hh _ a1 a2 (by rw [← Bool.not_eq_true, hostOnly_bit]; exact n3.1)
        (fun hfp => n3.2 ((indexable_iff (h.sound.wellFormed r' n1) E.bad pr').1 hfp)) a5
    · rintro ⟨hr, ⟨r, m1, m2, m3, m4⟩, hn⟩
      obtain ⟨e, hee⟩ := Option.ne_none_iff_exists'.1 (hv.excepted.2 ⟨hr, r, m1, m2, m3.2, m4⟩)
      refine ⟨e, hee, Classical.byContradiction fun hh => ?_⟩
      obtain ⟨from', ha⟩ := o2 e hee
      rcases from' with ⟨i1, i2, i3⟩ | ⟨g, -, hg, rfl⟩
      · obtain ⟨r', n1, n2, n3, pr, rfl⟩ := rule_of_acts h.sound h.loaded.loadedAs h.tags hq hsafe i1 (s := true) i2 ha
        have n4 : ¬ r'.HostOnly := fun h => hh ((hostOnly_bit r' pr).2 h)
        by_cases hi : r'.Indexable E.bad
        · obtain ⟨pr', a1, a2, a3, -, a5⟩ := acts_of_counted h hq hsafe m1 m4 m3.2
          rw [m2] at a2 a3
          exact k3 _ hee i3 ((indexable_iff (h.sound.wellFormed r' n1) E.bad pr).2 hi) _ a1 ((hostRule_of_text r pr' true).2 ⟨m3.1, m2⟩) a3 a5
        · exact hn ⟨r', n1, n2, ⟨n4, hi⟩, n3⟩
      · exact hh (by simpa using hg.2.1)
  unfold FindsHost
  rw [← first, ← second]
  constructor
  · rintro (⟨f, h, h'⟩ | ⟨f, h, h'⟩)
    · exact ⟨f, .inl h, h'⟩
    · exact ⟨f, .inr h, h'⟩
  · rintro ⟨f, h | h, h'⟩
    · exact .inl ⟨f, h, h'⟩
    · exact .inr ⟨f, h, h'⟩

end AdBlock
