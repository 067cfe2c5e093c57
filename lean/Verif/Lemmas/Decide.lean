import Verif.Lemmas.Reference
/-
A half of a query is decided exactly if some rule that is taken into account acts.
-/
namespace AdBlock
open Spec

section
variable {E : Env} {c : Client E} {fs : List Filter} (h : c.Holds fs)
include h

theorem mem_dom_entries {s : Bool} {d : DomId} {id : ListId} (hid : ∀ i : ListId, i.domId = some d ↔ i = id) {x : Bytes} :
    x ∈ (fs.filter (Filter.domClass E.bad d)).flatMap Filter.entries ↔
      ∃ g ∈ fs, classify E.bad g = .ok (.list id) ∧ ∃ dl, g.domainList = some dl ∧
        ((x ∈ positive dl ∧ x ≠ []) ∨ x ∈ negative dl) := by
  simp only [List.mem_flatMap, List.mem_filter]
  constructor
  · rintro ⟨g, ⟨hg, hc⟩, hx⟩
    refine ⟨g, hg, ?_, ?_⟩
    · unfold Filter.domClass at hc
      split at hc
      · rename_i i hi
        rw [hi, (hid i).1 (by simpa using hc)]
      · cases hc
    · unfold Filter.entries at hx
      cases hd : g.domainList with
      | none => rw [hd] at hx; simp at hx
      | some dl => rw [hd] at hx; exact ⟨dl, rfl, mem_domEntries.1 (by simpa using hx)⟩
  · rintro ⟨g, hg, hc, dl, hd, hx⟩
    refine ⟨g, ⟨hg, ?_⟩, ?_⟩
    · unfold Filter.domClass
      rw [hc]
      simpa using (hid id).2 rfl
    · unfold Filter.entries
      rw [hd]
      simpa using mem_domEntries.2 hx

theorem domSet_domId (s : Bool) (i : ListId) : i.domId = some (domSet s) ↔ i = domList s := by
  cases s <;> cases i <;> simp [ListId.domId, domSet, domList]

theorem antiSet_domId (s : Bool) (i : ListId) : i.domId = some (antiSet s) ↔ i = antiList s := by
  cases s <;> cases i <;> simp [ListId.domId, antiSet, antiList]

/-- a domain set misses if none of the names of the domain is entered -/
theorem domMiss_some (hr : c.Ready) (d : DomId) (cd : Bytes) :
    isNoFingerprintDomainHashSetMiss E (c.domSets d) (some cd) = true ↔
      ∀ x, NameOf cd x → x ∉ (fs.filter (Filter.domClass E.bad d)).flatMap Filter.entries := by
  obtain ⟨t, ht⟩ := Option.isSome_iff_exists.1 (hr.doms d)
  rw [ht]
  simp only [isNoFingerprintDomainHashSetMiss, List.all_eq_true]
  have hk := (h.doms ht).find
  constructor
  · intro hx x hn hm
    have := hx x ((mem_hostLookups cd x).2 hn)
    rw [show t.find (E.hash x) (fun y => y == x) = _ from hk x, Option.isNone_iff_eq_none, List.find?_eq_none] at this
    exact this x hm (by simp)
  · intro hx x hn
    rw [show t.find (E.hash x) (fun y => y == x) = _ from hk x, Option.isNone_iff_eq_none, List.find?_eq_none]
    intro y hy hyx
    have : y = x := by simpa using hyx
    subst this
    exact hx y ((mem_hostLookups cd y).1 hn) hy

/-- without context domain -/
theorem domMiss_none (hr : c.Ready) (d : DomId)
    (hx : [] ∉ (fs.filter (Filter.domClass E.bad d)).flatMap Filter.entries) :
    isNoFingerprintDomainHashSetMiss E (c.domSets d) none = true := by
  obtain ⟨t, ht⟩ := Option.isSome_iff_exists.1 (hr.doms d)
  rw [ht]
  simp only [isNoFingerprintDomainHashSetMiss, Option.isNone_iff_eq_none, HSet.find, List.find?_eq_none]
  intro y hy hyx
  have : y = [] := by simpa using hyx
  subst this
  exact hx ((h.doms ht).sub _ _ hy)

theorem only_positive_acts {f : Filter} {tags : List Bytes} {url : Bytes} {ctx : Mask} {cd : Bytes}
    (hf : OnlyPositive f) (ha : Acts tags url ctx (some cd) f) :
    ∃ dl, f.domainList = some dl ∧ ∃ x, NameOf cd x ∧ x ∈ positive dl ∧ x ≠ [] := by
  obtain ⟨dl, hd, hn⟩ := hf
  have ho := matchesOptions_of_matches ha.1
  have hcd : f.contextDomainMatchesFilter cd = true := by
    apply Decidable.byContradiction
    intro hc
    have ha1 := ha.1
    rw [(C11_domain_list_effect f cd url ctx none).2 (by simp [hd]) (by simpa using hc)] at ha1
    cases ha1
  refine ⟨dl, hd, ?_⟩
  obtain ⟨h1, h2⟩ := C11_most_specific_domain_decides f dl hd cd
  apply Classical.byContradiction
  intro hno
  have := (h2 (fun x hx => ⟨fun hm => hno ⟨x, ⟨hx.1, .inr hx.2⟩, hm, ?_⟩, by simp [hn]⟩)).1 hcd
  · rcases positive_or_negative dl with h | h
    · exact h this
    · exact h hn
  · rintro rfl; simp [Covers] at hx

omit h in
theorem Spec.Acts.supported {f : Filter} {tags : List Bytes} {url : Bytes} {ctx : Mask} {dom : Option Bytes}
    (ha : Acts tags url ctx dom f) : f.hasUnsupportedOptions = false := by
  have ho := matchesOptions_of_matches ha.1
  rw [← Bool.not_eq_true]
  intro hu
  unfold Filter.matchesOptions at ho
  rw [if_pos hu] at ho
  cases ho

omit h in
theorem Spec.Acts.data {f : Filter} {tags : List Bytes} {url : Bytes} {ctx : Mask} {dom : Option Bytes}
    (ha : Acts tags url ctx dom f) : f.data ≠ none := by
  intro hd
  rw [Acts, matches_no_data hd] at ha
  cases ha.1

variable {url : Bytes} {ctx : Mask} {dom : Option Bytes}

/-- A rule that decides a half of a query is one of the rules taken into account. -/
theorem decided_considered (hr : c.Ready) {s : Bool} {f : Filter} (hm : c.Meets s url dom f)
    (ha : Acts c.tags url ctx dom f) :
    ∃ g ∈ fs, CopyOf f g ∧ Kind s g ∧ Considered E.bad s fs url dom g ∧ Acts c.tags url ctx dom g := by
  have hpc : ∀ g ∈ fs, Parsed g ∧ ∃ cl, classify E.bad g = .ok cl := fun g hg => ⟨h.index.parsed g hg, h.index.classified g hg⟩
  rcases hm with ⟨hm, hd⟩ | ⟨hm, hd⟩ | hm | ⟨hm, _⟩ | ⟨t, d, ht, hd, hm⟩
  · obtain ⟨hf, hc⟩ := h.mem.1 hm
    obtain ⟨hp, hcl⟩ := hpc f hf
    obtain ⟨_, h2, h3⟩ := (in_domList hp hcl s).1 hc
    refine ⟨f, hf, .inl rfl, h2.1, ⟨fun hh => absurd hh.2.1 (by simp [h2.2.1]), fun _ _ hn => ?_, fun _ h4 => (not_both h3 h4).elim⟩, ha⟩
    subst hn
    rw [domMiss_none h hr] at hd
    · cases hd
    · rw [mem_dom_entries h (s := s) (domSet_domId h s)]
      rintro ⟨g, hg, hgc, dl, hdl, hx⟩
      obtain ⟨hgp, hgcl⟩ := hpc g hg
      obtain ⟨_, _, dl', hdl', hneg⟩ := (in_domList hgp hgcl s).1 hgc
      rw [hdl] at hdl'
      cases hdl'
      rcases hx with ⟨_, hx⟩ | hx
      · exact hx rfl
      · rw [hneg] at hx; cases hx
  · obtain ⟨hf, hc⟩ := h.mem.1 hm
    obtain ⟨hp, hcl⟩ := hpc f hf
    obtain ⟨_, h2, h3⟩ := (in_antiList hp hcl s).1 hc
    refine ⟨f, hf, .inl rfl, h2.1, ⟨fun hh => absurd hh.2.1 (by simp [h2.2.1]), fun _ h4 => (not_both h4 h3).elim, ?_⟩, ha⟩
    intro _ _ cd hcd g hg hgs hgu hgn dl hdl x hx hname
    subst hcd
    rw [domMiss_some h hr] at hd
    refine hd x hname ?_
    rw [mem_dom_entries h (s := s) (antiSet_domId h s)]
    obtain ⟨hgp, hgcl⟩ := hpc g hg
    exact ⟨g, hg, (in_antiList hgp hgcl s).2 ⟨hgs, hgu, hgn⟩, dl, hdl, .inr hx⟩
  · obtain ⟨hf, hc⟩ := h.mem.1 hm
    obtain ⟨hp, hcl⟩ := hpc f hf
    obtain ⟨_, h2, h3, h4⟩ := (in_plainList hp hcl s).1 hc
    exact ⟨f, hf, .inl rfl, h2.1, ⟨fun hh => absurd hh.2.1 (by simp [h2.2.1]), fun _ h => absurd h h3, fun _ h => absurd h h4⟩, ha⟩
  · obtain ⟨hf, hc⟩ := h.mem.1 hm
    obtain ⟨hp, hcl⟩ := hpc f hf
    obtain ⟨_, h2, h3, h4⟩ := (in_fpList hp hcl s).1 hc
    exact ⟨f, hf, .inl rfl, h2, ⟨fun hh => absurd hh.2.1 (by simp [h3]), fun hu => absurd h4 hu.2.2, fun hu => absurd h4 hu.2.2⟩, ha⟩
  · obtain ⟨g, hg, hhr, hfirst, hk, rfl⟩ := (host_find h ht).1 hm
    obtain ⟨hp, hcl⟩ := hpc g hg
    refine ⟨g, hg, ?_, hhr.1, ⟨fun _ => ⟨hfirst, ?_⟩, fun hu => absurd hhr.2.1 (by simp [hu.2.1]),
      fun hu => absurd hhr.2.1 (by simp [hu.2.1])⟩, matches_bare hp ha.1, by simpa using ha.2⟩
    · rcases hp.text with h0 | ⟨pat, h0, hpat⟩
      · exact absurd h0 hhr.2.2
      · exact .inr ⟨pat, hpat, bare_of_text hpat⟩
    · rw [hk]
      exact (mem_hostLookups _ _).1 hd

/-- If a half of a query is undecided, none of the rules taken into account acts. -/
theorem undecided_considered (hr : c.Ready) (hu : 0 ∉ url) (hroll : E.fp.rolls url)
    {s : Bool} (hne : dom = none → NoEmptyExclusion E.bad s fs) (hn : c.Undecided s url ctx dom) : ¬ SomeActs E.bad c.tags s fs url ctx dom := by
  rintro ⟨f, hf, hk, hcons, ha⟩
  have hpc : ∀ g ∈ fs, Parsed g ∧ ∃ cl, classify E.bad g = .ok cl := fun g hg => ⟨h.index.parsed g hg, h.index.classified g hg⟩
  obtain ⟨hp, hcl⟩ := hpc f hf
  have hs := ha.supported
  have hd := ha.data
  by_cases hh : has f.filterType FTHostOnly = true
  · -- a host rule
    have hhr : HostRule s f := ⟨hk, hh, hd⟩
    obtain ⟨h1, h2⟩ := hcons.host hhr
    obtain ⟨t, ht⟩ := Option.isSome_iff_exists.1 (hr.hs s)
    have hfind := (host_find h ht).2 ⟨f, hf, hhr, h1, rfl, rfl⟩
    have hl := (mem_hostLookups _ _).2 h2
    obtain ⟨b, hb⟩ := hn.hosts t _ _ ht hl hfind
    have hb' := matches_bare hp hb
    rw [ha.1] at hb'
    cases hb'
    exact hn.undecided ⟨_, .inr (.inr (.inr (.inr ⟨t, _, ht, hl, hfind⟩))), hb, by simpa using ha.2⟩
  rw [Bool.not_eq_true] at hh
  by_cases hfp : HasFingerprint E.bad f
  · have hc := (in_fpList hp hcl s).2 ⟨hs, hk, hh, hfp⟩
    obtain ⟨w, hw, hmem⟩ := h.index.bloom s f hf hc hd
    obtain ⟨b, hb⟩ := Option.isSome_iff_exists.1 (hr.bl s)
    refine hn.undecided ⟨f, .inr (.inr (.inr (.inl ⟨h.mem.2 ⟨hf, hc⟩, ?_⟩))), ha⟩
    rcases hp.hasText with h0 | ⟨pat, ht, hpat⟩
    · exact absurd h0 hd
    have hin := C17_fingerprint_in_url E.bad f pat w url ctx dom ht (.inr hpat) hw hu ha.1
    have hlen := (getFingerprint_infix ht (.inr hpat) hw).1.1
    have e : c.startBuild.bl s = b := by
      cases s <;> simp [Build.bl, Client.bl, Client.startBuild] at hb ⊢ <;> simp [hb]
    rw [e] at hmem
    have := E.fp.substr_of_mem b url w hroll hin hmem
    rw [hlen] at this
    rw [hb]
    simp [bloomMiss, kFingerprintSize] at this ⊢
    exact this
  have hun : Unindexed E.bad s f := ⟨hk, hh, hfp⟩
  by_cases hpos : OnlyPositive f
  · have hc := (in_domList hp hcl s).2 ⟨hs, hun, hpos⟩
    refine hn.undecided ⟨f, .inl ⟨h.mem.2 ⟨hf, hc⟩, ?_⟩, ha⟩
    cases hdom : dom with
    | none => exact absurd hdom (hcons.positive hun hpos)
    | some cd =>
      subst hdom
      obtain ⟨dl, hdl, x, h1, h2, h3⟩ := only_positive_acts h hpos ha
      rw [← Bool.not_eq_true, domMiss_some h hr]
      intro hall
      refine hall x h1 ?_
      rw [mem_dom_entries h (s := s) (domSet_domId h s)]
      exact ⟨f, hf, hc, dl, hdl, .inl ⟨h2, h3⟩⟩
  by_cases hneg : OnlyNegative f
  · have hc := (in_antiList hp hcl s).2 ⟨hs, hun, hneg⟩
    refine hn.undecided ⟨f, .inr (.inl ⟨h.mem.2 ⟨hf, hc⟩, ?_⟩), ha⟩
    have hsrc : ∀ {x}, x ∈ (fs.filter (Filter.domClass E.bad (antiSet s))).flatMap Filter.entries →
        ∃ g ∈ fs, g.hasUnsupportedOptions = false ∧ Unindexed E.bad s g ∧ OnlyNegative g ∧
          ∃ dl, g.domainList = some dl ∧ x ∈ negative dl := by
      intro x hx
      rw [mem_dom_entries h (s := s) (antiSet_domId h s)] at hx
      obtain ⟨g, hg, hgc, dl, hdl, hx⟩ := hx
      obtain ⟨hgp, hgcl⟩ := hpc g hg
      obtain ⟨g1, g2, g3⟩ := (in_antiList hgp hgcl s).1 hgc
      refine ⟨g, hg, g1, g2, g3, dl, hdl, ?_⟩
      obtain ⟨dl', hdl', hpe⟩ := g3
      rw [hdl] at hdl'
      cases hdl'
      rcases hx with ⟨hx, _⟩ | hx
      · rw [hpe] at hx; cases hx
      · exact hx
    cases hdom : dom with
    | none =>
      refine domMiss_none h hr _ fun hx => ?_
      obtain ⟨g, hg, _, g2, g3, dl, hdl, hx⟩ := hsrc hx
      exact hne hdom g hg g2 g3 dl hdl hx
    | some cd =>
      rw [domMiss_some h hr]
      intro x hx hm
      obtain ⟨g, hg, g1, g2, g3, dl, hdl, hxn⟩ := hsrc hm
      exact hcons.negative hun hneg cd hdom g hg g1 g2 g3 dl hdl x hxn hx
  · have hc := (in_plainList hp hcl s).2 ⟨hs, hun, hpos, hneg⟩
    exact hn.undecided ⟨f, .inr (.inr (.inl (h.mem.2 ⟨hf, hc⟩))), ha⟩

end

end AdBlock
