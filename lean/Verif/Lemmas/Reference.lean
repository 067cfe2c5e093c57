import Verif.Lemmas.Query
/-
The rules met by a query are the rules the specification considers.
-/
namespace AdBlock
open Spec

/-! ### fingerprints -/

theorem getFingerprint_eq (bad : List Bytes) (f : Filter) :
    getFingerprint bad f = if has f.filterType FTRegex then .ok none else
      (if has f.filterType FTHostAnchored then
        match f.host, f.data with
        | none, _ => .ub .nullDeref
        | some host, none => if host.length = 0 then .ok none else .ub .nullDeref
        | some host, some d => getFingerprintStr bad <$> cstrAt (d.drop host.length)
      else .ok none) >>= fun first =>
      match first with
      | some fp => .ok (some fp)
      | none =>
        match f.data with
        | none => .ok none
        | some d => getFingerprintStr bad <$> cstrAt d := by
  unfold getFingerprint
  cases has f.filterType FTRegex with
  | true => rfl
  | false =>
    cases has f.filterType FTHostAnchored with
    | false => rfl
    | true =>
      cases f.host with
      | none => rfl
      | some h =>
        cases f.data with
        | none => by_cases hl : h.length = 0 <;> simp [hl]
        | some d => rfl

theorem HasText.unique {f : Filter} {p q : Bytes} (hp : HasText f p) (hq : HasText f q) : p = q := by
  obtain ⟨h1, ⟨r, h2⟩, _⟩ := hp
  obtain ⟨h3, ⟨r', h4⟩, _⟩ := hq
  rw [h2] at h4
  simp only [Option.some.injEq] at h4
  have a : (p ++ 0 :: r).takeWhile (· ≠ 0) = p := by
    rw [List.takeWhile_append_of_pos (by intro x hx; simp; rintro rfl; exact h1 hx)]; simp
  have b : (q ++ 0 :: r').takeWhile (· ≠ 0) = q := by
    rw [List.takeWhile_append_of_pos (by intro x hx; simp; rintro rfl; exact h3 hx)]; simp
  rw [← a, h4, b]

theorem hasFingerprint_iff {bad : List Bytes} {f : Filter} (hp : Parsed f) {r : Option Bytes}
    (h : getFingerprint bad f = .ok r) : r.isSome = true ↔ HasFingerprint bad f := by
  by_cases hr : has f.filterType FTRegex = true
  · unfold getFingerprint at h
    rw [if_pos hr] at h
    cases h
    simp [HasFingerprint, hr]
  have hr' : has f.filterType FTRegex = false := by simpa using hr
  cases r with
  | some w =>
    simp only [Option.isSome_some, true_iff]
    rcases hp.hasText with hd | ⟨pat, ht, hd⟩
    · exfalso
      rw [getFingerprint_eq, if_neg hr] at h
      obtain ⟨o, ho, h⟩ := Res.bind_eq_ok.1 h
      rw [hd] at h ho
      have : o = none := by
        split at ho
        · cases hh : f.host with
          | none => rw [hh] at ho; cases ho
          | some k =>
            rw [hh] at ho
            simp only at ho
            split at ho
            · cases ho; rfl
            · cases ho
        · cases ho; rfl
      subst this
      cases h
    · obtain ⟨h1, h2⟩ := getFingerprint_infix ht (.inr hd) h
      exact ⟨hr', pat, w, ht, h2, h1⟩
  | none =>
    simp only [Option.isSome_none, Bool.false_eq_true, false_iff]
    rintro ⟨_, pat, w, ht, hw, hus⟩
    rw [getFingerprint_eq, if_neg hr] at h
    obtain ⟨o, ho, h⟩ := Res.bind_eq_ok.1 h
    cases o with
    | some v => cases h
    | none =>
      obtain ⟨h0, ⟨r, hd⟩, _⟩ := ht
      simp only [hd] at h
      rw [cstrAt_cstr h0, Res.map_ok] at h
      simp only [Res.ok.injEq] at h
      exact ((C16_leftmost_usable_window bad pat).2.1 h) w hw hus

/-! ### domain lists -/

theorem count_of_list {f : Filter} {dl : Bytes} (h : f.domainList = some dl) :
    f.getDomainCount false = (positive dl).length ∧ f.getDomainCount true = (negative dl).length := by
  unfold Filter.getDomainCount
  rw [domains_eq h, antiDomains_eq h]
  simp

theorem count_of_none {f : Filter} (h : f.domainList = none) (a : Bool) : f.getDomainCount a = 0 := by
  unfold Filter.getDomainCount Filter.domains Filter.antiDomains
  rw [h]; cases a <;> rfl

/-- a domain list has entries -/
theorem positive_or_negative (dl : Bytes) : positive dl ≠ [] ∨ negative dl ≠ [] := by
  obtain ⟨q, qs, hq⟩ := List.exists_cons_of_ne_nil (splitOn_ne_nil ch%'|' dl)
  by_cases hh : q.head? = some ch%'~'
  · right
    apply List.ne_nil_of_mem (a := q.drop 1)
    simp only [negative, hq, List.mem_map, List.mem_filter, decide_eq_true_eq]
    exact ⟨q, ⟨by simp, hh⟩, rfl⟩
  · left
    apply List.ne_nil_of_mem (a := q)
    simp only [positive, hq, List.mem_filter, decide_eq_true_eq]
    exact ⟨by simp, hh⟩

theorem isDomainOnly_iff (f : Filter) : f.isDomainOnlyFilter = true ↔ OnlyPositive f := by
  unfold Filter.isDomainOnlyFilter OnlyPositive
  cases h : f.domainList with
  | none => simp [count_of_none h]
  | some dl =>
    obtain ⟨h1, h2⟩ := count_of_list h
    rw [h1, h2]
    have := positive_or_negative dl
    simp
    intro hn
    simpa [hn] using this

theorem isAntiDomainOnly_iff (f : Filter) : f.isAntiDomainOnlyFilter = true ↔ OnlyNegative f := by
  unfold Filter.isAntiDomainOnlyFilter OnlyNegative
  cases h : f.domainList with
  | none => simp [count_of_none h]
  | some dl =>
    obtain ⟨h1, h2⟩ := count_of_list h
    rw [h1, h2]
    have := positive_or_negative dl
    simp
    intro hn
    simpa [hn] using this

theorem not_both {f : Filter} (h1 : OnlyPositive f) (h2 : OnlyNegative f) : False := by
  obtain ⟨dl, h1, h3⟩ := h1
  obtain ⟨dl', h2, h4⟩ := h2
  rw [h1] at h2
  cases h2
  rcases positive_or_negative dl with h | h
  · exact h h4
  · exact h h3

/-! ### which rules are in which list -/

theorem list_net {bad : List Bytes} {f : Filter} (hp : Parsed f) {s : Bool} {id : ListId}
    (hid : id = fpList s ∨ id = domList s ∨ id = antiList s ∨ id = plainList s)
    (h : classify bad f = .ok (.list id)) :
    f.hasUnsupportedOptions = false ∧ Kind s f ∧ has f.filterType FTHostOnly = false ∧
    ∃ w, getFingerprint bad f = .ok w ∧
      Class.list id = netClass s w.isSome f.isDomainOnlyFilter f.isAntiDomainOnlyFilter := by
  have key : ∀ s', f.hasUnsupportedOptions = false → Kind s' f → has f.filterType FTHostOnly = false →
      f.hasUnsupportedOptions = false ∧ Kind s f ∧ has f.filterType FTHostOnly = false ∧
      ∃ w, getFingerprint bad f = .ok w ∧
        Class.list id = netClass s w.isSome f.isDomainOnlyFilter f.isAntiDomainOnlyFilter := by
    intro s' h1 h2 h3
    have h' := h
    rw [classify_kind bad h1 h2, if_neg (by simp [h3])] at h'
    obtain ⟨w, hw, h'⟩ := Res.bind_eq_ok.1 h'
    simp only [Res.ok.injEq] at h'
    have : s' = s := by
      unfold netClass at h'
      simp only [Class.list.injEq] at h'
      revert h' hid
      clear h hw
      cases s <;> cases s' <;> cases id <;> simp [fpList, domList, antiList, plainList] <;> intro h <;>
        (repeat' split at h) <;> cases h
    subst this
    exact ⟨h1, h2, h3, w, hw, h'.symm⟩
  have hsplit : ∀ {X : Prop}, (id = .cosmetic ∨ id = .html) → X := by
    intro X hx
    exfalso
    rcases hx with rfl | rfl <;> cases s <;> simp [fpList, domList, antiList, plainList] at hid
  obtain ⟨cl, hcl⟩ : ∃ cl, cl = Class.list id := ⟨_, rfl⟩
  have hc := classify_spec hp h
  rw [← hcl] at hc
  cases hc with
  | unsupported => cases hcl
  | idle => cases hcl
  | cosmetic => exact hsplit (.inl (by simpa using hcl.symm))
  | html => exact hsplit (.inr (by simpa using hcl.symm))
  | host s' => cases s' <;> cases hcl
  | fp s' w h1 h2 h3 => exact key s' h1 h2 h3
  | dom s' h1 h2 h3 => exact key s' h1 h2 h3
  | anti s' h1 h2 h3 => exact key s' h1 h2 h3
  | plain s' h1 h2 h3 => exact key s' h1 h2 h3

section
variable {bad : List Bytes} {f : Filter} (hp : Parsed f) (hc : ∃ cl, classify bad f = .ok cl) (s : Bool)
include hp hc

omit hp in
theorem net_class (h1 : f.hasUnsupportedOptions = false) (h2 : Kind s f) (h3 : has f.filterType FTHostOnly = false) :
    ∃ w, getFingerprint bad f = .ok w ∧
      classify bad f = .ok (netClass s w.isSome f.isDomainOnlyFilter f.isAntiDomainOnlyFilter) := by
  obtain ⟨cl, hc⟩ := hc
  rw [classify_kind bad h1 h2, if_neg (by simp [h3])] at hc
  obtain ⟨w, hw, hc⟩ := Res.bind_eq_ok.1 hc
  refine ⟨w, hw, ?_⟩
  rw [classify_kind bad h1 h2, if_neg (by simp [h3]), hw]
  rfl

theorem in_fpList : classify bad f = .ok (.list (fpList s)) ↔
    f.hasUnsupportedOptions = false ∧ Kind s f ∧ has f.filterType FTHostOnly = false ∧ HasFingerprint bad f := by
  constructor
  · intro h
    obtain ⟨h1, h2, h3, w, h4, h5⟩ := list_net hp (.inl rfl) h
    refine ⟨h1, h2, h3, (hasFingerprint_iff hp h4).1 ?_⟩
    unfold netClass at h5
    cases hw : w.isSome
    · rw [hw] at h5
      cases s <;> simp [fpList, domList, antiList, plainList] at h5 <;> (repeat' split at h5) <;> cases h5
    · rfl
  · rintro ⟨h1, h2, h3, h4⟩
    obtain ⟨w, hw, h⟩ := net_class hc s h1 h2 h3
    rw [h, (hasFingerprint_iff hp hw).2 h4]
    rfl

theorem in_domList : classify bad f = .ok (.list (domList s)) ↔
    f.hasUnsupportedOptions = false ∧ Unindexed bad s f ∧ OnlyPositive f := by
  rw [← isDomainOnly_iff]
  constructor
  · intro h
    obtain ⟨h1, h2, h3, w, h4, h5⟩ := list_net hp (.inr (.inl rfl)) h
    unfold netClass at h5
    have : w.isSome = false ∧ f.isDomainOnlyFilter = true := by
      cases hw : w.isSome <;> cases hd : f.isDomainOnlyFilter <;> cases ha : f.isAntiDomainOnlyFilter <;>
        cases s <;> simp [hw, hd, ha, fpList, domList, antiList, plainList] at h5 ⊢
    exact ⟨h1, ⟨h2, h3, fun h => by rw [(hasFingerprint_iff hp h4).2 h] at this; simp at this⟩, this.2⟩
  · rintro ⟨h1, ⟨h2, h3, h4⟩, h5⟩
    obtain ⟨w, hw, h⟩ := net_class hc s h1 h2 h3
    have : w.isSome = false := by
      rw [← Bool.not_eq_true]
      exact fun e => h4 ((hasFingerprint_iff hp hw).1 e)
    rw [h, this, h5]
    rfl

theorem in_antiList : classify bad f = .ok (.list (antiList s)) ↔
    f.hasUnsupportedOptions = false ∧ Unindexed bad s f ∧ OnlyNegative f := by
  constructor
  · intro h
    obtain ⟨h1, h2, h3, w, h4, h5⟩ := list_net hp (.inr (.inr (.inl rfl))) h
    unfold netClass at h5
    have : w.isSome = false ∧ f.isAntiDomainOnlyFilter = true := by
      cases hw : w.isSome <;> cases hd : f.isDomainOnlyFilter <;> cases ha : f.isAntiDomainOnlyFilter <;>
        cases s <;> simp [hw, hd, ha, fpList, domList, antiList, plainList] at h5 ⊢
    exact ⟨h1, ⟨h2, h3, fun h => by rw [(hasFingerprint_iff hp h4).2 h] at this; simp at this⟩,
      (isAntiDomainOnly_iff f).1 this.2⟩
  · rintro ⟨h1, ⟨h2, h3, h4⟩, h5⟩
    obtain ⟨w, hw, h⟩ := net_class hc s h1 h2 h3
    have : w.isSome = false := by
      rw [← Bool.not_eq_true]
      exact fun e => h4 ((hasFingerprint_iff hp hw).1 e)
    have hd : f.isDomainOnlyFilter = false := by
      rw [← Bool.not_eq_true]
      exact fun hd => not_both ((isDomainOnly_iff f).1 hd) h5
    rw [h, this, hd, (isAntiDomainOnly_iff f).2 h5]
    rfl

theorem in_plainList : classify bad f = .ok (.list (plainList s)) ↔
    f.hasUnsupportedOptions = false ∧ Unindexed bad s f ∧ ¬ OnlyPositive f ∧ ¬ OnlyNegative f := by
  rw [← isDomainOnly_iff, ← isAntiDomainOnly_iff]
  constructor
  · intro h
    obtain ⟨h1, h2, h3, w, h4, h5⟩ := list_net hp (.inr (.inr (.inr rfl))) h
    unfold netClass at h5
    have : w.isSome = false ∧ f.isDomainOnlyFilter = false ∧ f.isAntiDomainOnlyFilter = false := by
      cases hw : w.isSome <;> cases hd : f.isDomainOnlyFilter <;> cases ha : f.isAntiDomainOnlyFilter <;>
        cases s <;> simp [hw, hd, ha, fpList, domList, antiList, plainList] at h5 ⊢
    exact ⟨h1, ⟨h2, h3, fun h => by rw [(hasFingerprint_iff hp h4).2 h] at this; simp at this⟩,
      by simp [this.2.1], by simp [this.2.2]⟩
  · rintro ⟨h1, ⟨h2, h3, h4⟩, h5, h6⟩
    obtain ⟨w, hw, h⟩ := net_class hc s h1 h2 h3
    have : w.isSome = false := by
      rw [← Bool.not_eq_true]
      exact fun e => h4 ((hasFingerprint_iff hp hw).1 e)
    rw [Bool.not_eq_true] at h5 h6
    rw [h, this, h5, h6]
    rfl

end

/-! ### what a loaded client holds -/

/-- the client holds the rules `fs` -/
structure Client.Holds {E} (c : Client E) (fs : List Filter) : Prop where
  index : Index E fs c.startBuild
  ready : c.Ready ∨ fs = [] ∧ (∀ s, c.bl s = none) ∧ (∀ s, c.hs s = none) ∧ ∀ d, c.domSets d = none

theorem reads_unique {bad : List Bytes} {pr : Bool} {ls : List Bytes} {fs gs : List Filter} (h1 : Reads bad pr ls fs)
    (h2 : Reads bad pr ls gs) : fs = gs := by
  induction h1 generalizing gs with
  | nil => cases h2; rfl
  | cons hf _ ih =>
    cases h2 with
    | cons hg hr =>
      rw [hf] at hg
      cases hg
      rw [ih hr]

theorem history_holds {E : Env} {c : Client E} {fs : List Filter} (h : History E c fs) : c.Holds fs := by
  induction h with
  | new => exact ⟨Index.start E, .inr ⟨rfl, fun s => by cases s <;> rfl, fun s => by cases s <;> rfl, fun _ => rfl⟩⟩
  | @parse c c' fs gs input pr _ h0 hpar hr ih =>
    obtain ⟨n, b, h1, h2, rfl⟩ := parse_ok_iff.1 hpar
    obtain ⟨gs', hg, hi⟩ := Index.fill (fun l hl h => h0 (mem_lines hl 0 h).1) ih.index h2
    rw [reads_unique hg hr] at hi
    exact ⟨hi, .inl ⟨fun s => by cases s <;> rfl, fun s => by cases s <;> rfl, fun _ => rfl⟩⟩
  | clear => exact ⟨Index.start E, .inr ⟨rfl, fun s => by cases s <;> rfl, fun s => by cases s <;> rfl, fun _ => rfl⟩⟩
  | query h hq ih =>
    unfold Client.matches at hq
    obtain ⟨o, ho, hq⟩ := Res.bind_eq_ok.1 hq
    cases hq
    exact ⟨ih.index, ih.ready.imp (fun h => ⟨h.bl, h.hs, h.doms⟩) id⟩
  | addTag t h ih =>
    unfold Client.addTag
    split
    · exact ih
    · exact ⟨ih.index, ih.ready.imp (fun h => ⟨h.bl, h.hs, h.doms⟩) id⟩
  | removeTag t h ih => exact ⟨ih.index, ih.ready.imp (fun h => ⟨h.bl, h.hs, h.doms⟩) id⟩
  | enableBadFingerprintDetection h ih =>
    unfold Client.enableBadFingerprintDetection
    split
    · exact ih
    · exact ⟨ih.index, ih.ready.imp (fun h => ⟨h.bl, h.hs, h.doms⟩) id⟩

section
variable {E : Env} {c : Client E} {fs : List Filter}

theorem Client.Holds.mem (h : c.Holds fs) {id : ListId} {f : Filter} :
    f ∈ c.lists id ↔ f ∈ fs ∧ classify E.bad f = .ok (.list id) := by
  have : c.lists id = _ := h.index.arr id
  rw [this]
  simp

theorem Client.Holds.parsed (h : c.Holds fs) (id : ListId) : ∀ f ∈ c.lists id, Parsed f :=
  fun f hf => h.index.parsed f (h.mem.1 hf).1

theorem Client.Holds.hosts (h : c.Holds fs) {s : Bool} {t : HSet Filter} (ht : c.hs s = some t) :
    Keeps t hostKey E.hash ((fs.filter (Filter.entered s)).map Filter.bare) := by
  have := h.index.hosts s
  have e : c.startBuild.hs s = t := by
    cases s <;> simp [Build.hs, Client.hs, Client.startBuild] at ht ⊢ <;> simp [ht]
  rwa [e] at this

theorem Client.Holds.doms (h : c.Holds fs) {d : DomId} {t : HSet Bytes} (ht : c.domSets d = some t) :
    Keeps t id E.hash ((fs.filter (Filter.domClass E.bad d)).flatMap Filter.entries) := by
  have := h.index.doms d
  have e : c.startBuild.domSets d = t := by simp [Client.startBuild, ht]
  rwa [e] at this

/-- the rules in the hash sets are the host rules -/
theorem entered_iff {f : Filter} (hp : Parsed f) (s : Bool) : f.entered s = true ↔ HostRule s f := by
  unfold Filter.entered HostRule
  cases hd : f.data with
  | none => simp
  | some d =>
    by_cases hh : has f.filterType FTHostOnly = true
    · have hk : has f.filterType FTException = s ↔ Kind s f := by
        refine ⟨fun h => ?_, fun h => hp.kind_exception h⟩
        unfold Kind
        rw [netBits_list (hp.hostOnly_kind hh), h]
        rfl
      simp [hh, hk]
    · simp [hh]

theorem find?_congr_mem {α : Type} {p q : α → Bool} {l : List α} (h : ∀ a ∈ l, p a = q a) : l.find? p = l.find? q := by
  induction l with
  | nil => rfl
  | cons a l ih =>
    simp only [List.find?_cons, h a (by simp), ih fun b hb => h b (by simp [hb])]

/-- what is found in the hash sets of hosts -/
theorem host_find (h : c.Holds fs) {s : Bool} {t : HSet Filter} (ht : c.hs s = some t) {d : Bytes} {f : Filter} :
    t.find (E.hash d) (fun f => hostKey f == d) = some f ↔
      ∃ g ∈ fs, HostRule s g ∧ FirstForHost s fs g ∧ g.host.getD [] = d ∧ f = g.bare := by
  rw [(h.hosts ht).find d, List.find?_map, Option.map_eq_some_iff, List.find?_filter]
  have hsome : ∀ g ∈ fs, HostRule s g → g.host.isSome = true := fun g hg hr =>
    (h.index.parsed g hg).host ((h.index.parsed g hg).hostOnly hr.2.1)
  -- for a rule with this host, being found means being the first one
  have key : ∀ g ∈ fs, HostRule s g → g.host.getD [] = d →
      ((fs.find? fun a => decide (Filter.entered s a = true ∧
        ((fun x => hostKey x == d) ∘ Filter.bare) a = true)) = some g ↔ FirstForHost s fs g) := by
    intro g hg hr hd
    unfold FirstForHost
    rw [find?_congr_mem]
    intro a ha
    rw [decide_eq_decide]
    by_cases hra : HostRule s a
    · rw [entered_iff (h.index.parsed a ha)]
      obtain ⟨x, hx⟩ := Option.isSome_iff_exists.1 (hsome a ha hra)
      obtain ⟨y, hy⟩ := Option.isSome_iff_exists.1 (hsome g hg hr)
      rw [hy] at hd
      simp only [Option.getD_some] at hd
      subst hd
      simp [hra, hostKey, hx, hy]
    · rw [entered_iff (h.index.parsed a ha)]
      simp [hra]
  constructor
  · rintro ⟨g, hg, rfl⟩
    have hm := List.mem_of_find?_eq_some hg
    have hp := List.find?_some hg
    simp only [Function.comp_apply, hostKey, bare_host, beq_iff_eq, decide_eq_true_eq] at hp
    have hr := (entered_iff (h.index.parsed g hm) s).1 hp.1
    exact ⟨g, hm, hr, (key g hm hr hp.2).1 hg, hp.2, rfl⟩
  · rintro ⟨g, hm, hr, hf, hd, rfl⟩
    exact ⟨g, (key g hm hr hd).2 hf, rfl⟩

end

end AdBlock
