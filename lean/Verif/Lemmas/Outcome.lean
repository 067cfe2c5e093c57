import Verif.Lemmas.Decide
import Verif.Props.Url
/-
Outcomes of `matches` and `findMatchingFilters` for clients with a history.
-/
namespace AdBlock
open Spec

/-! ### clients without rules -/

section
variable {E : Env} {c : Client E}

theorem query_empty (hl : ∀ id, c.lists id = []) (hs : ∀ s, c.hs s = none) (url : Bytes) (co : Mask) (dom : Option Bytes) :
    ∃ o, c.query url co dom = .ok o ∧ o.block = false ∧ o.filter = none ∧ o.exception = none ∧ o.badFps = c.badFps := by
  obtain ⟨b, hb⟩ := C03_protocol_check_in_bounds url url.length
  cases b with
  | false => exact ⟨_, query_not_web hb, rfl, rfl, rfl, rfl⟩
  | true =>
    have h1 : c.hostSet = none := hs false
    have h2 : c.hostExceptionSet = none := hs true
    have hno : ∀ d a x y z, c.noFpPhase d a x y z url (resolveContext url co dom) dom = .ok none := by
      intro d a x y z
      rw [noFpPhase_eq, hl, hl, hl]
      simp [hasMatchingFilters]
    have hblock : c.blockPhase url (resolveContext url co dom) dom = .ok (.hit none) := by
      unfold Client.blockPhase
      rw [hno, Res.bind_ok]
      simp [h1, isHostAnchoredHashSetMiss]
    have hexc : c.exceptionPhase none url (resolveContext url co dom) dom =
        .ok ⟨false, none, none, { c.stats with numExceptionHashSetSaves := c.stats.numExceptionHashSetSaves + 1 }, c.badFps⟩ := by
      unfold Client.exceptionPhase
      rw [hno, Res.bind_ok]
      simp [h2, isHostAnchoredHashSetMiss]
    unfold Client.query
    rw [hb, Res.bind_ok]
    simp only [Bool.not_true, Bool.false_eq_true, ↓reduceIte]
    rw [hblock, Res.bind_ok]
    exact ⟨_, hexc, rfl, rfl, rfl, rfl⟩

theorem find_empty (hl : ∀ id, c.lists id = []) (hs : ∀ s, c.hs s = none) (url : Bytes) (co : Mask) (dom : Option Bytes) :
    c.findMatchingFilters url co dom = .ok ⟨false, none, none⟩ := by
  have h1 : c.hostSet = none := hs false
  unfold Client.findMatchingFilters
  simp [hl, h1, isHostAnchoredHashSetMiss, firstInLists, hasMatchingFilters]

/-! ### findMatchingFilters -/

theorem firstInLists_ok {tags : List Bytes} {m : Filter → Res Bool} {ls : List (List Filter)} {r : Option Filter}
    (h : firstInLists tags m ls = .ok r) :
    (∀ f, r = some f → ∃ l ∈ ls, f ∈ l ∧ m f = .ok true ∧ tagOk tags f = true) ∧
    (r = none → ∀ l ∈ ls, ∀ f ∈ l, ¬ (m f = .ok true ∧ tagOk tags f = true)) := by
  induction ls with
  | nil => cases h; simp
  | cons l ls ih =>
    unfold firstInLists at h
    obtain ⟨x, hx, h⟩ := Res.bind_eq_ok.1 h
    obtain ⟨h1, h2⟩ := hasMatching_ok hx
    cases x with
    | some g =>
      cases h
      refine ⟨fun f hf => ?_, fun h => by simp at h⟩
      cases hf
      exact ⟨l, by simp, h1 g rfl⟩
    | none =>
      obtain ⟨h3, h4⟩ := ih h
      refine ⟨fun f hf => ?_, fun hr l' hl' => ?_⟩
      · obtain ⟨l', a, b⟩ := h3 f hf
        exact ⟨l', by simp [a], b⟩
      · rcases List.mem_cons.1 hl' with rfl | hl'
        · exact h2 rfl
        · exact h4 hr l' hl'

/-- the rules met by `findMatchingFilters` -/
def Client.FindMeets (c : Client E) (s : Bool) (url : Bytes) (f : Filter) : Prop :=
  f ∈ c.lists (domList s) ∨ f ∈ c.lists (antiList s) ∨ f ∈ c.lists (plainList s) ∨ f ∈ c.lists (fpList s) ∨
  ∃ t d, c.hs s = some t ∧ d ∈ hostLookups (getUrlHost url) ∧ t.find (E.hash d) (fun f => hostKey f == d) = some f

/-- none of them acts, and the comparisons with the host rules went well -/
structure Client.FindNone (c : Client E) (s : Bool) (url : Bytes) (ctx : Mask) (dom : Option Bytes) : Prop where
  undecided : ∀ f, c.FindMeets s url f → ¬ Acts c.tags url ctx dom f
  hosts : ∀ t d f, c.hs s = some t → d ∈ hostLookups (getUrlHost url) →
    t.find (E.hash d) (fun f => hostKey f == d) = some f → ∃ b, f.matches url ctx dom none = .ok b

/-- the possible outcomes -/
inductive Client.FindOut (c : Client E) (url : Bytes) (ctx : Mask) (dom : Option Bytes) : Found → Prop
  | free : c.FindNone false url ctx dom → Client.FindOut c url ctx dom ⟨false, none, none⟩
  | excepted (f e : Filter) : c.FindMeets false url f → Acts c.tags url ctx dom f → c.FindMeets true url e →
      Acts c.tags url ctx dom e → Client.FindOut c url ctx dom ⟨false, some f, some e⟩
  | blocked (f : Filter) : c.FindMeets false url f → Acts c.tags url ctx dom f → c.FindNone true url ctx dom →
      Client.FindOut c url ctx dom ⟨true, some f, none⟩

theorem find_eq (url : Bytes) (co : Mask) (dom : Option Bytes) : c.findMatchingFilters url co dom =
    firstInLists c.tags (Client.callMatchNoBloom url (resolveContext url co dom) dom)
      [c.lists .noFp, c.lists .noFpDomain, c.lists .noFpAntiDomain, c.lists .filters] >>= fun r1 =>
    (match r1 with
      | some f => .ok (some f)
      | none => SetRes.found <$> isHostAnchoredHashSetMiss E c.tags
          (Client.callMatchNoBloom url (resolveContext url co dom) dom) c.hostSet (getUrlHost url)) >>= fun mf =>
    match mf with
    | none => .ok ⟨false, none, none⟩
    | some f =>
      firstInLists c.tags (Client.callMatchNoBloom url (resolveContext url co dom) dom)
        [c.lists .noFpException, c.lists .noFpDomainException, c.lists .noFpAntiDomainException] >>= fun e1 =>
      (match e1 with
        | some e => .ok (some e)
        | none => SetRes.found <$> isHostAnchoredHashSetMiss E c.tags
            (Client.callMatchNoBloom url (resolveContext url co dom) dom) c.hostExceptionSet (getUrlHost url)) >>= fun e2 =>
      (match e2 with
        | some e => .ok (some e)
        | none => hasMatchingFilters c.tags (Client.callMatchNoBloom url (resolveContext url co dom) dom)
            (c.lists .exception)) >>= fun e3 =>
      .ok ⟨e3.isNone, some f, e3⟩ := by
  unfold Client.findMatchingFilters
  simp only
  congr 1
  funext r1
  have tail : ∀ (e1 : Option Filter) (X : Res (Option Filter)) (Y : Res (Option Filter)) (f : Filter), (do
      let e2 ← match e1 with
        | some e => pure (some e)
        | none => X
      let e3 ← match e2 with
        | some e => pure (some e)
        | none => Y
      pure (⟨e3.isNone, some f, e3⟩ : Found)) =
      (match e1 with
        | some e => .ok (some e)
        | none => X) >>= fun e2 =>
      (match e2 with
        | some e => .ok (some e)
        | none => Y) >>= fun e3 =>
      .ok (⟨e3.isNone, some f, e3⟩ : Found) := by
    intro e1 X Y f
    cases e1 with
    | some e => rfl
    | none =>
      simp only
      congr 1
      funext e2
      cases e2 <;> rfl
  cases r1 with
  | some f => simp only [Res.pure_eq, Res.bind_ok]; congr 1; funext e1; exact tail ..
  | none =>
    simp only
    congr 1
    funext mf
    cases mf with
    | none => rfl
    | some f => simp only [Res.pure_eq, Res.bind_ok]; congr 1; funext e1; exact tail ..

theorem find_ok (hr : c.Ready) {url : Bytes} {co ctx : Mask} {dom : Option Bytes} (hctx : resolveContext url co dom = ctx)
    {r : Found} (h : c.findMatchingFilters url co dom = .ok r) : c.FindOut url ctx dom r := by
  rw [find_eq, hctx] at h
  obtain ⟨r1, e1, h⟩ := Res.bind_eq_ok.1 h
  obtain ⟨mf, e2, h⟩ := Res.bind_eq_ok.1 h
  obtain ⟨a1, a2⟩ := firstInLists_ok e1
  -- the first half
  have lists : ∀ f, r1 = some f → c.FindMeets false url f ∧ Acts c.tags url ctx dom f := by
    intro f hf
    obtain ⟨l, hl, hfl, hm, ht⟩ := a1 f hf
    refine ⟨?_, hm, (tagOk_iff _ _).1 ht⟩
    simp only [List.mem_cons, List.not_mem_nil, or_false] at hl
    rcases hl with rfl | rfl | rfl | rfl
    · exact .inr (.inr (.inl hfl))
    · exact .inl hfl
    · exact .inr (.inl hfl)
    · exact .inr (.inr (.inr (.inl hfl)))
  have half : (∀ f, mf = some f → c.FindMeets false url f ∧ Acts c.tags url ctx dom f) ∧
      (mf = none → c.FindNone false url ctx dom) := by
    cases hr1 : r1 with
    | some f =>
      rw [hr1] at e2
      cases e2
      refine ⟨fun g hg => ?_, by simp⟩
      cases hg
      exact lists f hr1
    | none =>
      rw [hr1] at e2
      obtain ⟨sr, e3, e4⟩ := Res.map_eq_ok.1 e2
      obtain ⟨_, m2, m3⟩ := hostMiss_ok (s := false) (hr.hs false) e3
      subst e4
      refine ⟨fun f hf => ?_, fun hn => ⟨?_, fun t d f x y z => (m3 hn t d f x y z).2⟩⟩
      · have e5 := e3
        obtain ⟨t, ht⟩ := Option.isSome_iff_exists.1 (hr.hs false)
        have ht' : c.hostSet = some t := ht
        rw [ht'] at e5
        simp only [isHostAnchoredHashSetMiss] at e5
        obtain ⟨o, ho, e5⟩ := Res.bind_eq_ok.1 e5
        cases e5
        obtain ⟨⟨d, hd, hfd⟩, hm, htag⟩ := (hostSetLookup_ok ho).1 f hf
        exact ⟨.inr (.inr (.inr (.inr ⟨t, d, ht, hd, hfd⟩))), hm, (tagOk_iff _ _).1 htag⟩
      · rintro f hf ha
        have hno : ∀ l ∈ [c.lists .noFp, c.lists .noFpDomain, c.lists .noFpAntiDomain, c.lists .filters], f ∉ l :=
          fun l hl hfl => a2 hr1 l hl f hfl ⟨ha.1, (tagOk_iff _ _).2 ha.2⟩
        rcases hf with hf | hf | hf | hf | ⟨t, d, ht, hd, hf⟩
        · exact hno (c.lists .noFpDomain) (by simp) hf
        · exact hno (c.lists .noFpAntiDomain) (by simp) hf
        · exact hno (c.lists .noFp) (by simp) hf
        · exact hno (c.lists .filters) (by simp) hf
        · exact (m3 hn t d f ht hd hf).1 ha
  cases mf with
  | none => cases h; exact .free (half.2 rfl)
  | some f =>
    obtain ⟨hf1, hf2⟩ := half.1 f rfl
    simp only at h
    obtain ⟨x1, e3, h⟩ := Res.bind_eq_ok.1 h
    obtain ⟨x2, e4, h⟩ := Res.bind_eq_ok.1 h
    obtain ⟨x3, e5, h⟩ := Res.bind_eq_ok.1 h
    cases h
    obtain ⟨b1, b2⟩ := firstInLists_ok e3
    have hx1 : ∀ e, x1 = some e → c.FindMeets true url e ∧ Acts c.tags url ctx dom e := by
      intro e he
      obtain ⟨l, hl, hel, hm, ht⟩ := b1 e he
      refine ⟨?_, hm, (tagOk_iff _ _).1 ht⟩
      simp only [List.mem_cons, List.not_mem_nil, or_false] at hl
      rcases hl with rfl | rfl | rfl
      · exact .inr (.inr (.inl hel))
      · exact .inl hel
      · exact .inr (.inl hel)
    have hx2 : (∀ e, x2 = some e → c.FindMeets true url e ∧ Acts c.tags url ctx dom e) ∧
        (x2 = none → x1 = none ∧ ∀ t d f, c.hs true = some t → d ∈ hostLookups (getUrlHost url) →
          t.find (E.hash d) (fun f => hostKey f == d) = some f →
          ¬ Acts c.tags url ctx dom f ∧ ∃ b, f.matches url ctx dom none = .ok b) := by
      cases h1 : x1 with
      | some e =>
        rw [h1] at e4
        cases e4
        refine ⟨fun g hg => ?_, by simp⟩
        cases hg
        exact hx1 e h1
      | none =>
        rw [h1] at e4
        obtain ⟨sr, e6, e7⟩ := Res.map_eq_ok.1 e4
        obtain ⟨_, m2, m3⟩ := hostMiss_ok (s := true) (hr.hs true) e6
        subst e7
        refine ⟨fun f hf => ?_, fun hn => ⟨rfl, m3 hn⟩⟩
        have e5 := e6
        obtain ⟨t, ht⟩ := Option.isSome_iff_exists.1 (hr.hs true)
        have ht' : c.hostExceptionSet = some t := ht
        rw [ht'] at e5
        simp only [isHostAnchoredHashSetMiss] at e5
        obtain ⟨o, ho, e5⟩ := Res.bind_eq_ok.1 e5
        cases e5
        obtain ⟨⟨d, hd, hfd⟩, hm, htag⟩ := (hostSetLookup_ok ho).1 f hf
        exact ⟨.inr (.inr (.inr (.inr ⟨t, d, ht, hd, hfd⟩))), hm, (tagOk_iff _ _).1 htag⟩
    have hx3 : (∀ e, x3 = some e → c.FindMeets true url e ∧ Acts c.tags url ctx dom e) ∧
        (x3 = none → c.FindNone true url ctx dom) := by
      cases h2 : x2 with
      | some e =>
        rw [h2] at e5
        cases e5
        refine ⟨fun g hg => ?_, by simp⟩
        cases hg
        exact hx2.1 e h2
      | none =>
        rw [h2] at e5
        obtain ⟨k1, k2⟩ := hasMatching_ok e5
        obtain ⟨n1, n2⟩ := hx2.2 h2
        refine ⟨fun e he => ?_, fun hn => ⟨?_, fun t d f x y z => (n2 t d f x y z).2⟩⟩
        · obtain ⟨z1, z2, z3⟩ := k1 e he
          exact ⟨.inr (.inr (.inr (.inl z1))), z2, (tagOk_iff _ _).1 z3⟩
        · rintro f hf ha
          have hno : ∀ l ∈ [c.lists .noFpException, c.lists .noFpDomainException, c.lists .noFpAntiDomainException], f ∉ l :=
            fun l hl hfl => b2 n1 l hl f hfl ⟨ha.1, (tagOk_iff _ _).2 ha.2⟩
          rcases hf with hf | hf | hf | hf | ⟨t, d, ht, hd, hf⟩
          · exact hno (c.lists .noFpDomainException) (by simp) hf
          · exact hno (c.lists .noFpAntiDomainException) (by simp) hf
          · exact hno (c.lists .noFpException) (by simp) hf
          · exact k2 hn f hf ⟨ha.1, (tagOk_iff _ _).2 ha.2⟩
          · exact (n2 t d f ht hd hf).1 ha
    cases x3 with
    | some e => exact .excepted f e hf1 hf2 (hx3.1 e rfl).1 (hx3.1 e rfl).2
    | none => exact .blocked f hf1 hf2 (hx3.2 rfl)

end

section
variable {E : Env} {c : Client E} {fs : List Filter} (h : c.Holds fs) {url : Bytes} {ctx : Mask} {dom : Option Bytes}
include h

/-- A rule found by `findMatchingFilters` is one of the rules taken into account. -/
theorem find_listed {s : Bool} {f : Filter} (hm : c.FindMeets s url f) (ha : Acts c.tags url ctx dom f) :
    ∃ g ∈ fs, CopyOf f g ∧ Kind s g ∧ Listed s fs url g ∧ Acts c.tags url ctx dom g := by
  have hpc : ∀ g ∈ fs, Parsed g ∧ ∃ cl, classify E.bad g = .ok cl := fun g hg => ⟨h.index.parsed g hg, h.index.classified g hg⟩
  rcases hm with hm | hm | hm | hm | ⟨t, d, ht, hd, hm⟩
  · obtain ⟨hf, hc⟩ := h.mem.1 hm
    obtain ⟨hp, hcl⟩ := hpc f hf
    obtain ⟨_, h2, h3⟩ := (in_domList hp hcl s).1 hc
    exact ⟨f, hf, .inl rfl, h2.1, fun hh => absurd hh.2.1 (by simp [h2.2.1]), ha⟩
  · obtain ⟨hf, hc⟩ := h.mem.1 hm
    obtain ⟨hp, hcl⟩ := hpc f hf
    obtain ⟨_, h2, h3⟩ := (in_antiList hp hcl s).1 hc
    exact ⟨f, hf, .inl rfl, h2.1, fun hh => absurd hh.2.1 (by simp [h2.2.1]), ha⟩
  · obtain ⟨hf, hc⟩ := h.mem.1 hm
    obtain ⟨hp, hcl⟩ := hpc f hf
    obtain ⟨_, h2, h3, h4⟩ := (in_plainList hp hcl s).1 hc
    exact ⟨f, hf, .inl rfl, h2.1, fun hh => absurd hh.2.1 (by simp [h2.2.1]), ha⟩
  · obtain ⟨hf, hc⟩ := h.mem.1 hm
    obtain ⟨hp, hcl⟩ := hpc f hf
    obtain ⟨_, h2, h3, h4⟩ := (in_fpList hp hcl s).1 hc
    exact ⟨f, hf, .inl rfl, h2, fun hh => absurd hh.2.1 (by simp [h3]), ha⟩
  · obtain ⟨g, hg, hhr, hfirst, hk, rfl⟩ := (host_find h ht).1 hm
    obtain ⟨hp, hcl⟩ := hpc g hg
    refine ⟨g, hg, ?_, hhr.1, fun _ => ⟨hfirst, ?_⟩, matches_bare hp ha.1, by simpa using ha.2⟩
    · rcases hp.text with h0 | ⟨pat, h0, hpat⟩
      · exact absurd h0 hhr.2.2
      · exact .inr ⟨pat, hpat, bare_of_text hpat⟩
    · rw [hk]
      exact (mem_hostLookups _ _).1 hd

theorem find_none_listed (hr : c.Ready) {s : Bool} (hn : c.FindNone s url ctx dom) :
    ¬ SomeListedActs c.tags s fs url ctx dom := by
  rintro ⟨f, hf, hk, hlist, ha⟩
  have hp := h.index.parsed f hf
  have hcl := h.index.classified f hf
  have hs := ha.supported
  by_cases hh : has f.filterType FTHostOnly = true
  · have hhr : HostRule s f := ⟨hk, hh, ha.data⟩
    obtain ⟨h1, h2⟩ := hlist hhr
    obtain ⟨t, ht⟩ := Option.isSome_iff_exists.1 (hr.hs s)
    have hfind := (host_find h ht).2 ⟨f, hf, hhr, h1, rfl, rfl⟩
    have hl := (mem_hostLookups _ _).2 h2
    obtain ⟨b, hb⟩ := hn.hosts t _ _ ht hl hfind
    have hb' := matches_bare hp hb
    rw [ha.1] at hb'
    cases hb'
    exact hn.undecided _ (.inr (.inr (.inr (.inr ⟨t, _, ht, hl, hfind⟩)))) ⟨hb, by simpa using ha.2⟩
  rw [Bool.not_eq_true] at hh
  by_cases hfp : HasFingerprint E.bad f
  · exact hn.undecided f (.inr (.inr (.inr (.inl (h.mem.2 ⟨hf, (in_fpList hp hcl s).2 ⟨hs, hk, hh, hfp⟩⟩))))) ha
  have hun : Unindexed E.bad s f := ⟨hk, hh, hfp⟩
  by_cases hpos : OnlyPositive f
  · exact hn.undecided f (.inl (h.mem.2 ⟨hf, (in_domList hp hcl s).2 ⟨hs, hun, hpos⟩⟩)) ha
  by_cases hneg : OnlyNegative f
  · exact hn.undecided f (.inr (.inl (h.mem.2 ⟨hf, (in_antiList hp hcl s).2 ⟨hs, hun, hneg⟩⟩))) ha
  · exact hn.undecided f (.inr (.inr (.inl (h.mem.2 ⟨hf, (in_plainList hp hcl s).2 ⟨hs, hun, hpos, hneg⟩⟩)))) ha

end

/-! ### definedness -/

section
variable {E : Env} {c : Client E}

theorem hasMatching_defined {tags : List Bytes} {m : Filter → Res Bool} {l : List Filter}
    (h : ∀ f ∈ l, ∃ b, m f = .ok b) : ∃ r, hasMatchingFilters tags m l = .ok r := by
  induction l with
  | nil => exact ⟨_, rfl⟩
  | cons g l ih =>
    obtain ⟨b, hb⟩ := h g (by simp)
    obtain ⟨r, hr⟩ := ih fun f hf => h f (by simp [hf])
    unfold hasMatchingFilters
    rw [hb, Res.bind_ok]
    split
    · exact ⟨_, rfl⟩
    · exact ⟨r, hr⟩

theorem hostSetLookup_defined {tags : List Bytes} {m : Filter → Res Bool} {s : HSet Filter} {ds : List Bytes}
    (h : ∀ d ∈ ds, ∀ f, s.find (E.hash d) (fun f => hostKey f == d) = some f → ∃ b, m f = .ok b) :
    ∃ r, hostSetLookup E tags m s ds = .ok r := by
  induction ds with
  | nil => exact ⟨_, rfl⟩
  | cons d ds ih =>
    obtain ⟨r, hr⟩ := ih fun d hd => h d (by simp [hd])
    unfold hostSetLookup
    split
    · exact ⟨r, hr⟩
    · rename_i g hg
      obtain ⟨b, hb⟩ := h d (by simp) g hg
      rw [hb, Res.bind_ok]
      split
      · exact ⟨_, rfl⟩
      · exact ⟨r, hr⟩

theorem noFpPhase_defined {url : Bytes} {ctx : Mask} {dom : Option Bytes} (d a : DomId) (x y z : ListId)
    (h : ∀ id ∈ [x, y, z], ∀ f ∈ c.lists id, ∃ b, Client.callMatch E url ctx dom f = .ok b) :
    ∃ r, c.noFpPhase d a x y z url ctx dom = .ok r := by
  rw [noFpPhase_eq]
  have one : ∀ (b : Bool) id o, id ∈ [x, y, z] → ∃ r, (if b then hasMatchingFilters c.tags (Client.callMatch E url ctx dom) (c.lists id)
      else .ok o) = .ok r := by
    intro b id o hid
    cases b with
    | false => exact ⟨o, rfl⟩
    | true => exact hasMatching_defined (h id hid)
  obtain ⟨r1, h1⟩ := one (!isNoFingerprintDomainHashSetMiss E (c.domSets d) dom) x none (by simp)
  rw [h1, Res.bind_ok]
  obtain ⟨r2, h2⟩ := one (r1.isNone && isNoFingerprintDomainHashSetMiss E (c.domSets a) dom) y r1 (by simp)
  rw [h2, Res.bind_ok]
  exact one r2.isNone z r2 (by simp)

theorem discover_defined (bf : List Bytes) (url : Bytes) {b : Option E.fp.B} (hb : b.isSome = true) :
    ∃ r, discoverMatchingPrefix E bf url b = .ok r := by
  obtain ⟨b, rfl⟩ := Option.isSome_iff_exists.1 hb
  unfold discoverMatchingPrefix
  generalize windows kFingerprintSize url = ws
  cases ws with
  | nil => exact ⟨_, rfl⟩
  | cons w ws =>
    simp only
    split <;> exact ⟨_, rfl⟩

/-- If all comparisons with rules are defined, the query is. -/
theorem query_defined (hr : c.Ready) {url : Bytes} {co : Mask} {dom : Option Bytes}
    (h1 : ∀ id, id ≠ .cosmetic → id ≠ .html → ∀ f ∈ c.lists id,
      ∃ b, Client.callMatch E url (resolveContext url co dom) dom f = .ok b)
    (h2 : ∀ s t d f, c.hs s = some t → d ∈ hostLookups (getUrlHost url) →
      t.find (E.hash d) (fun f => hostKey f == d) = some f → ∃ b, f.matches url (resolveContext url co dom) dom none = .ok b) :
    ∃ o, c.query url co dom = .ok o := by
  obtain ⟨b, hb⟩ := C03_protocol_check_in_bounds url url.length
  unfold Client.query
  rw [hb, Res.bind_ok]
  cases b with
  | false => exact ⟨_, rfl⟩
  | true =>
    simp only [Bool.not_true, Bool.false_eq_true, ↓reduceIte]
    generalize resolveContext url co dom = ctx at *
    have hset : ∀ s, ∃ r, isHostAnchoredHashSetMiss E c.tags (Client.callMatchNoBloom url ctx dom) (c.hs s)
        (getUrlHost url) = .ok r := by
      intro s
      obtain ⟨t, ht⟩ := Option.isSome_iff_exists.1 (hr.hs s)
      rw [ht]
      obtain ⟨r, hrr⟩ := hostSetLookup_defined (E := E) (tags := c.tags) (m := Client.callMatchNoBloom url ctx dom)
        (s := t) (ds := hostLookups (getUrlHost url)) fun d hd f hf => h2 s t d f ht hd hf
      simp only [isHostAnchoredHashSetMiss]
      rw [hrr]
      exact ⟨_, rfl⟩
    have hexc : ∀ mf, ∃ o, c.exceptionPhase mf url ctx dom = .ok o := by
      intro mf
      unfold Client.exceptionPhase
      obtain ⟨r1, e1⟩ := noFpPhase_defined .domainException .antiDomainException .noFpDomainException
        .noFpAntiDomainException .noFpException (fun id hid => h1 id (by rintro rfl; simp at hid) (by rintro rfl; simp at hid))
      rw [e1, Res.bind_ok]
      cases r1 with
      | some f => exact ⟨_, rfl⟩
      | none =>
        simp only
        obtain ⟨r2, e2⟩ := hset true
        rw [show isHostAnchoredHashSetMiss E c.tags (Client.callMatchNoBloom url ctx dom) c.hostExceptionSet
          (getUrlHost url) = _ from e2, Res.bind_ok]
        split
        · exact ⟨_, rfl⟩
        split
        · exact ⟨_, rfl⟩
        obtain ⟨r3, e3⟩ := hasMatching_defined (tags := c.tags) (h1 .exception (by decide) (by decide))
        rw [e3, Res.bind_ok]
        cases r3 with
        | some f => exact ⟨_, rfl⟩
        | none =>
          simp only
          split
          · exact ⟨_, rfl⟩
          · rename_i bf _
            obtain ⟨r4, e4⟩ := discover_defined bf url (hr.bl true)
            rw [show discoverMatchingPrefix E bf url c.exceptionBloom = _ from e4]
            exact ⟨_, rfl⟩
    have hblock : ∃ r, c.blockPhase url ctx dom = .ok r := by
      unfold Client.blockPhase
      obtain ⟨r1, e1⟩ := noFpPhase_defined .domain .antiDomain .noFpDomain .noFpAntiDomain .noFp
        (fun id hid => h1 id (by rintro rfl; simp at hid) (by rintro rfl; simp at hid))
      rw [e1, Res.bind_ok]
      cases r1 with
      | some f => exact ⟨_, rfl⟩
      | none =>
        simp only
        obtain ⟨r2, e2⟩ := hset false
        rw [show isHostAnchoredHashSetMiss E c.tags (Client.callMatchNoBloom url ctx dom) c.hostSet
          (getUrlHost url) = _ from e2, Res.bind_ok]
        split
        · exact ⟨_, rfl⟩
        split
        · exact ⟨_, rfl⟩
        obtain ⟨r3, e3⟩ := hasMatching_defined (tags := c.tags) (h1 .filters (by decide) (by decide))
        rw [e3, Res.bind_ok]
        cases r3 with
        | some f => exact ⟨_, rfl⟩
        | none =>
          simp only
          split
          · exact ⟨_, rfl⟩
          · rename_i bf _
            obtain ⟨r4, e4⟩ := discover_defined bf url (hr.bl false)
            rw [show discoverMatchingPrefix E bf url c.bloom = _ from e4]
            exact ⟨_, rfl⟩
    obtain ⟨r, e⟩ := hblock
    rw [e, Res.bind_ok]
    cases r with
    | done o => exact ⟨o, rfl⟩
    | hit f => exact hexc f

theorem bare_hasBareText {f : Filter} (hp : Parsed f) (hd : f.data ≠ none) :
    ∃ pat, HasText f pat ∧ HasBareText f.bare pat := by
  rcases hp.text with h0 | ⟨pat, h0, hpat⟩
  · exact absurd h0 hd
  · refine ⟨pat, ⟨h0, ⟨[], hpat⟩, .inl hp.dataLen⟩, ?_⟩
    rw [bare_of_text hpat]
    exact ⟨h0, ⟨[], by simp⟩, rfl⟩

/-- a rule that is compared with requests, but matches none -/
def Inert (f : Filter) : Prop :=
  has f.filterType FTHostOnly = false ∧ ∀ url ctx dom bloom, f.matches url ctx dom bloom = .ok false

theorem holds_kind {fs : List Filter} (h : c.Holds fs) {id : ListId} (h1 : id ≠ .cosmetic) (h2 : id ≠ .html) {f : Filter}
    (hf : f ∈ c.lists id) : f ∈ fs ∧ ∃ s, Kind s f := by
  obtain ⟨hfs, hc⟩ := h.mem.1 hf
  refine ⟨hfs, ?_⟩
  have := classify_spec (h.index.parsed f hfs) hc
  generalize he : Class.list id = cl at this
  cases this with
  | unsupported => cases he
  | idle => cases he
  | cosmetic => cases he; exact absurd rfl h1
  | html => cases he; exact absurd rfl h2
  | _ => exact ⟨_, by assumption⟩

/-- Comparing the rule with this request is safe, and so is comparing its copy in a hash set. -/
def SafeOn (url : Bytes) (ctx : Mask) (dom : Option Bytes) (f : Filter) : Prop :=
  (∃ b, f.matches url ctx dom none = .ok b) ∧
    ∀ pat, HasText f pat → HasBareText f.bare pat → has f.filterType FTHostOnly = true → f.host.getD [] ∈ hostLookups (getUrlHost url) →
      ∃ b, f.bare.matches url ctx dom none = .ok b

theorem safeRule_on {f : Filter} (h : SafeRule f) (hp : f.data = none ∨ ∃ pat, HasText f pat) {url : Bytes} (hu : 0 ∉ url) (ctx : Mask)
    (dom : Option Bytes) : SafeOn url ctx dom f := by
  refine ⟨?_, fun pat h1 h2 hh _ => ?_⟩
  · rcases hp with h0 | ⟨pat, hp⟩
    · exact ⟨false, matches_no_data h0 ..⟩
    · exact C47_in_bounds_for_url_partial f pat url ctx dom hp hu fun part hpart => CaretEdge.safe ((h pat hp).1 part hpart) url
  · obtain ⟨h5, h6, h7⟩ := (h pat h1).2 hh
    exact C47_in_bounds_unterminated_partial f.bare pat h2 h5 h6 (by simpa using h7) url hu
      (fun part hpart => CaretEdge.safe ((h pat h1).1 part hpart) url) ctx dom

/-- Queries are defined if all rules about requests are safe. -/
theorem query_safe' {fs : List Filter} (h : c.Holds fs) {url : Bytes} {co : Mask} {dom : Option Bytes}
    (hs : ∀ f ∈ fs, ∀ s, Kind s f → SafeOn url (resolveContext url co dom) dom f ∨ Inert f) (hu : 0 ∉ url) : ∃ o, c.query url co dom = .ok o := by
  rcases h.ready with hr | ⟨rfl, hb, hh, hd⟩
  · refine query_defined hr (fun id n1 n2 f hf => ?_) (fun s t d f ht hd hf => ?_)
    · obtain ⟨hfs, s, hk⟩ := holds_kind h n1 n2 hf
      have hp := h.index.parsed f hfs
      rcases hs f hfs s hk with hs | hi
      · rcases hp.hasText with h0 | ⟨pat, ht, _⟩
        · exact ⟨false, matches_no_data h0 ..⟩
        · obtain ⟨b, hb⟩ := hs.1
          exact ⟨b, C15_in_client E f pat url _ dom (.inl ht) hu b hb⟩
      · exact ⟨false, hi.2 ..⟩
    · obtain ⟨g, hg, hhr, hfirst, hk, rfl⟩ := (host_find h ht).1 hf
      have hp := h.index.parsed g hg
      obtain ⟨pat, h1, h2⟩ := bare_hasBareText hp hhr.2.2
      rcases hs g hg s hhr.1 with hs | hi
      · exact hs.2 pat h1 h2 hhr.2.1 (hk ▸ hd)
      · exact absurd hhr.2.1 (by rw [hi.1]; decide)
  · obtain ⟨o, ho, _⟩ := query_empty (c := c) (fun id => (h.index.arr id).trans rfl) hh url co dom
    exact ⟨o, ho⟩

/-- Queries are defined if all rules are safe. -/
theorem query_safe {fs : List Filter} (h : c.Holds fs) (hs : ∀ f ∈ fs, SafeRule f) {url : Bytes} (hu : 0 ∉ url) (co : Mask)
    (dom : Option Bytes) : ∃ o, c.query url co dom = .ok o :=
  query_safe' h (fun f hf _ _ => .inl (safeRule_on (hs f hf) ((h.index.parsed f hf).hasText.imp id fun ⟨pat, ht, _⟩ => ⟨pat, ht⟩) hu _ dom)) hu

end

end AdBlock
