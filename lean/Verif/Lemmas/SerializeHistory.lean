import Verif.Lemmas.SerializeQuery
/-
The clients reached by a history can be written and read back.
-/
namespace AdBlock
open Spec

/-! ### parsed rules contain no NUL, and tags no comma -/

/-- the strings of a rule other than its text -/
structure Clean (f : Filter) : Prop where
  tag : 0 ∉ f.tag ∧ ch%',' ∉ f.tag
  domains : ∀ dl, f.domainList = some dl → 0 ∉ dl
  host : ∀ h, f.host = some h → 0 ∉ h

theorem parseOption_clean {f : Filter} (h : Clean f) {o : Bytes} (h0 : 0 ∉ o) (hc : ch%',' ∉ o) :
    Clean (f.parseOption o) := by
  have hs : ∀ n, 0 ∉ (if (o.head? == some ch%'~') = true then o.drop 1 else o).drop n ∧
      ch%',' ∉ (if (o.head? == some ch%'~') = true then o.drop 1 else o).drop n := by
    intro n
    split
    · exact ⟨fun h => h0 (List.mem_of_mem_drop (List.mem_of_mem_drop h)),
        fun h => hc (List.mem_of_mem_drop (List.mem_of_mem_drop h))⟩
    · exact ⟨fun h => h0 (List.mem_of_mem_drop h), fun h => hc (List.mem_of_mem_drop h)⟩
  simp only [Filter.parseOption]
  generalize (if (o.head? == some ch%'~') = true then o.drop 1 else o) = s at hs ⊢
  split
  · exact ⟨h.tag, fun dl e => by cases e; exact (hs 7).1, h.host⟩
  split
  · exact ⟨hs 4, h.domains, h.host⟩
  split
  · exact ⟨h.tag, h.domains, h.host⟩
  · exact ⟨h.tag, h.domains, h.host⟩

theorem parseOptionsLoop_clean {o : Bytes} (h0 : 0 ∉ o) : ∀ {f : Filter} {cur : Bytes}, Clean f → 0 ∉ cur →
    ch%',' ∉ cur → Clean (f.parseOptionsLoop cur o) := by
  induction o with
  | nil => intro f cur h h1 h2; exact parseOption_clean h h1 h2
  | cons c o ih =>
    intro f cur h h1 h2
    have ih := @ih (fun h => h0 (by simp [h]))
    simp only [Filter.parseOptionsLoop]
    split
    · exact parseOption_clean h h1 h2
    split
    · exact ih (parseOption_clean h h1 h2) (by simp) (by simp)
    · rename_i hc
      refine ih h ?_ ?_
      · simp only [List.mem_append, List.mem_singleton, not_or]
        exact ⟨h1, fun e => h0 (by simp [e])⟩
      · simp only [List.mem_append, List.mem_singleton, not_or]
        exact ⟨h2, fun e => hc e.symm⟩

theorem Clean.withType {f : Filter} (h : Clean f) (m : Mask) : Clean { f with filterType := m } := ⟨h.tag, h.domains, h.host⟩

/-- the state of the parser -/
def CleanState (s : PLocals) : Prop := 0 ∉ s.data ∧ Clean s.f

/-- the outcome of the loop -/
def CleanOut : LoopOut → Prop
  | .ret f => Clean f
  | .fin s => CleanState s

theorem parsed_clean {bad : List Bytes} {line : Bytes} {t : Byte} (ht : Term t) {pr full : Bool} {f : Filter}
    {e : Effect} (h0 : 0 ∉ line) (h : parseFilter bad line t pr full = .ok (f, e)) : Clean f := by
  unfold parseFilter at h
  obtain ⟨o, ho, h⟩ := Res.bind_eq_ok.1 h
  have hpost : CleanOut o := by
    refine parseLoop_inv' ht (R := fun c => c ≠ 0) (P := CleanState) (Q := CleanOut) ?_ ?_ ?_ ?_ ?_
      (fun c hc e => h0 (e ▸ hc)) ?_ ho
    · intro s h; exact h
    · intro s h; exact h.2
    · intro s c hc _ h
      refine ⟨?_, h.2⟩
      simp only [PLocals.push, List.mem_append, List.mem_singleton, not_or]
      exact ⟨h.1, fun e => hc e.symm⟩
    · intro s c h _ _; exact ⟨h.1, h.2.withType _⟩
    · intro c p s n hc hp h hs hcase
      have hpush : 0 ∉ s.data ++ [c] := by
        simp only [List.mem_append, List.mem_singleton, not_or]; exact ⟨h.1, fun e => hc e.symm⟩
      have hp0 : 0 ∉ p := fun h => hp 0 h rfl
      have htd : 0 ∉ s.takeDomains.data ∧ Clean s.takeDomains.f := by
        unfold PLocals.takeDomains; split
        · exact ⟨by simp, h.2.tag, fun dl e => by cases e; exact h.1, h.2.host⟩
        · exact h
      cases hcase with
      | bar1 _ _ => exact h
      | bar2 _ _ =>
        refine ⟨h.1, h.2.tag, h.2.domains, fun x hx => ?_⟩
        cases hx
        exact fun hm => hp0 ((anchoredHost_prefix p).subset hm)
      | barR _ _ => exact ⟨h.1, h.2.withType _⟩
      | at1 _ _ => exact h
      | at2 _ _ => exact ⟨h.1, h.2.withType _⟩
      | comment _ _ => exact h.2.withType _
      | white _ _ => exact h
      | push _ _ _ => exact ⟨hpush, h.2⟩
      | data _ _ _ => exact ⟨hpush, h.2⟩
      | regex f _ _ h3 =>
        unfold regexFilter at h3
        split at h3
        · cases h3; exact ⟨h.2.tag, h.2.domains, h.2.host⟩
        · cases h3
      | html _ _ => exact ⟨htd.1, htd.2.withType _⟩
      | opts _ _ =>
        refine ⟨h.1, ?_⟩
        show Clean (s.f.parseOptions p)
        unfold Filter.parseOptions
        exact parseOptionsLoop_clean hp0 ⟨h.2.tag, h.2.domains, h.2.host⟩ (by simp) (by simp)
      | cosmetic m _ _ _ => exact ⟨htd.1, htd.2.withType _⟩
    · exact ⟨by simp, ⟨by simp, by simp⟩, by simp, by simp⟩
  cases o with
  | ret g => cases h; exact hpost
  | fin s =>
    have h : finishFilter bad line pr full s = .ok (f, e) := h
    have hpost : CleanState s := hpost
    by_cases hs : s.st = .start
    · simp only [finishFilter, hs, ↓reduceIte, Res.pure_eq, Res.ok.injEq, Prod.mk.injEq] at h
      obtain ⟨rfl, rfl⟩ := h
      exact hpost.2.withType _
    · rw [finishFilter_eq _ _ _ _ hs] at h
      obtain ⟨rfl, _, _⟩ := finishWith_effect (by simp [PLocals.result]) h
      exact ⟨hpost.2.tag, hpost.2.domains, hpost.2.host⟩

theorem reads_clean {bad : List Bytes} {pr : Bool} {ls : List Bytes} {fs : List Filter} (h : Reads bad pr ls fs)
    (h0 : ∀ l ∈ ls, 0 ∉ l) : ∀ f ∈ fs, Clean f := by
  induction h with
  | nil => simp
  | cons hp _ ih =>
    intro f hf
    rcases List.mem_cons.1 hf with rfl | hf
    · exact parsed_clean (.inl rfl) (h0 _ (by simp)) hp
    · exact ih (fun l hl => h0 l (by simp [hl])) f hf

theorem history_clean {E : Env} {c : Client E} {fs : List Filter} (h : History E c fs) : ∀ f ∈ fs, Clean f := by
  induction h with
  | new => simp
  | parse _ h0 _ hr ih =>
    intro f hf
    rcases List.mem_append.1 hf with hf | hf
    · exact ih f hf
    · exact reads_clean hr (fun l hl h => h0 (mem_lines hl 0 h).1) f hf
  | clear => simp
  | query _ _ ih => exact ih
  | addTag _ _ ih => exact ih
  | removeTag _ _ ih => exact ih
  | enableBadFingerprintDetection _ ih => exact ih

/-! ### the sizes of the hash sets -/

/-- the numbers of buckets -/
structure Sized {E} (b : Build E) : Prop where
  hostSet : 0 < b.hostSet.count ∧ b.hostSet.count < 2 ^ 32
  hostExceptionSet : 0 < b.hostExceptionSet.count ∧ b.hostExceptionSet.count < 2 ^ 32
  domSets : ∀ d, 0 < (b.domSets d).count ∧ (b.domSets d).count < 2 ^ 32

theorem addDomains_count {E : Env} : ∀ {ds : List Bytes} {s s' : HSet Bytes}, addDomains E ds s = .ok s' →
    s'.count = s.count := by
  intro ds
  induction ds with
  | nil => intro s s' h; cases h; rfl
  | cons d ds ih =>
    intro s s' h
    simp only [addDomains] at h
    repeat' split at h
    all_goals first | cases h; done | exact (ih h).trans rfl

theorem apply_sized {E} {b b' : Build E} {f : Filter} {e : Effect} (h : Sized b) (ha : b.apply f e = .ok b') : Sized b' := by
  cases e with
  | none => cases ha; exact h
  | addHostException =>
    obtain ⟨g, _, ha⟩ := Res.bind_eq_ok.1 ha
    cases ha; exact ⟨h.1, h.2, h.3⟩
  | addHost =>
    obtain ⟨g, _, ha⟩ := Res.bind_eq_ok.1 ha
    cases ha; exact ⟨h.1, h.2, h.3⟩
  | addExceptionFingerprint fp => cases ha; exact ⟨h.1, h.2, h.3⟩
  | addFingerprint fp => cases ha; exact ⟨h.1, h.2, h.3⟩

theorem fill_sized {E : Env} {pr : Bool} : ∀ {ls : List (Bytes × Byte)} {b b' : Build E}, Sized b →
    fill E pr ls b = .ok b' → Sized b' := by
  intro ls
  induction ls with
  | nil => intro b b' h hf; cases hf; exact h
  | cons l ls ih =>
    intro b b' h hf
    obtain ⟨b1, h1, hf⟩ := Res.bind_eq_ok.1 hf
    refine ih ?_ hf
    obtain ⟨x, _, h1⟩ := Res.bind_eq_ok.1 h1
    obtain ⟨b2, h2, h1⟩ := Res.bind_eq_ok.1 h1
    obtain ⟨cl, _, h1⟩ := Res.bind_eq_ok.1 h1
    have hs := apply_sized h h2
    cases cl with
    | drop => cases h1; exact hs
    | hostAnchored => cases h1; exact hs
    | hostAnchoredException => cases h1; exact hs
    | list id =>
      simp only [Build.store] at h1
      cases hd : id.domId with
      | none => rw [hd] at h1; cases h1; exact ⟨hs.1, hs.2, hs.3⟩
      | some d =>
        rw [hd] at h1
        obtain ⟨s, hadd, h1⟩ := Res.bind_eq_ok.1 h1
        cases h1
        refine ⟨hs.1, hs.2, fun i => ?_⟩
        have hc : s.count = (b2.domSets d).count := by
          unfold addFilterDomainsToHashSet at hadd
          split at hadd
          · cases hadd; rfl
          · exact addDomains_count hadd
        show 0 < (if i = d then s else b2.domSets i).count ∧ (if i = d then s else b2.domSets i).count < 2 ^ 32
        split
        · rw [hc]; exact hs.domSets d
        · exact hs.domSets i

/-- the hash sets which exist have a sensible number of buckets -/
theorem history_sized {E : Env} {c : Client E} {fs : List Filter} (h : History E c fs) : Sized c.startBuild := by
  have fresh : ∀ c : Client E, c.hostSet = none → c.hostExceptionSet = none → (∀ d, c.domSets d = none) →
      Sized c.startBuild := by
    intro c h1 h2 h3
    refine ⟨?_, ?_, fun d => ?_⟩
    · simp [Client.startBuild, h1, HSet.new]
    · simp [Client.startBuild, h2, HSet.new]
    · simp only [Client.startBuild, h3, Option.getD_none, HSet.new]
      cases d <;> decide
  induction h with
  | new => exact fresh _ rfl rfl fun _ => rfl
  | parse _ h0 hpar hr ih =>
    obtain ⟨n, b, h1, h2, rfl⟩ := parse_ok_iff.1 hpar
    have := fill_sized ih h2
    exact ⟨this.1, this.2, this.3⟩
  | clear => exact fresh _ rfl rfl fun _ => rfl
  | query h hq ih =>
    unfold Client.matches at hq
    obtain ⟨o, ho, hq⟩ := Res.bind_eq_ok.1 hq
    cases hq
    exact ⟨ih.1, ih.2, ih.3⟩
  | addTag t h ih =>
    unfold Client.addTag
    split
    · exact ih
    · exact ⟨ih.1, ih.2, ih.3⟩
  | removeTag t h ih => exact ⟨ih.1, ih.2, ih.3⟩
  | enableBadFingerprintDetection h ih =>
    unfold Client.enableBadFingerprintDetection
    split
    · exact ih
    · exact ⟨ih.1, ih.2, ih.3⟩

/-! ### storable clients -/

theorem Clean.storable {f : Filter} (hc : Clean f) (hr : Representable f) : StorableOptions f :=
  ⟨hc.tag, fun dl h => ⟨hc.domains dl h, (hr.domains dl h).1, (hr.domains dl h).2.2⟩, hc.host⟩

theorem parsed_storable {f : Filter} (hp : Parsed f) (hc : Clean f) (hr : Representable f) : StorableRule f := by
  refine ⟨hc.storable hr, ?_⟩
  rcases hp.text with h | ⟨pat, h0, h⟩
  · exact .inl h
  · have : HasText f pat := ⟨h0, ⟨[], h⟩, .inl hp.dataLen⟩
    exact .inr ⟨pat, this, (hr.text pat this).1⟩

/-- the copies in the hash sets -/
theorem bare_storable {f : Filter} (hp : Parsed f) (hc : Clean f) (hr : Representable f) (hd : f.data ≠ none) :
    StorableEntry f.bare ∧ ∃ pat, 0 ∉ pat ∧ f.bare.data = some pat ∧ f.bare.dataLen = some pat.length := by
  rcases hp.text with h | ⟨pat, h0, h⟩
  · exact absurd h hd
  · have ht : HasText f pat := ⟨h0, ⟨[], h⟩, .inl hp.dataLen⟩
    have hs := hc.storable hr
    rw [bare_of_text h]
    exact ⟨⟨⟨hs.tag, hs.domains, hs.host⟩, pat, ⟨h0, ⟨[], by simp⟩, rfl⟩, (hr.text pat ht).2⟩, pat, h0, rfl, rfl⟩

theorem mem_bare {fs : List Filter} {s : Bool} {g : Filter} (h : g ∈ (fs.filter (Filter.entered s)).map Filter.bare) :
    ∃ f ∈ fs, f.data ≠ none ∧ f.bare = g := by
  obtain ⟨f, hf, rfl⟩ := List.mem_map.1 h
  obtain ⟨hf, he⟩ := List.mem_filter.1 hf
  refine ⟨f, hf, ?_, rfl⟩
  intro hn
  simp [Filter.entered, hn] at he

theorem domEntries_length {dl x : Bytes} (h : x ∈ domEntries dl) : x.length ≤ dl.length := by
  have seg : ∀ (d cur : Bytes), ∀ y ∈ domainSegmentsLoop cur d, y.length ≤ cur.length + d.length := by
    intro d
    induction d with
    | nil => intro cur y hy; simp [domainSegmentsLoop] at hy; simp [hy]
    | cons c d ih =>
      intro cur y hy
      simp only [domainSegmentsLoop] at hy
      split at hy
      · rcases List.mem_cons.1 hy with rfl | hy
        · simp
        · have := ih _ y hy; simp at this ⊢; omega
      · have := ih _ y hy; simp at this ⊢; omega
  have key : ∀ y ∈ domainSegments dl, y.length ≤ dl.length := fun y hy => by simpa using seg dl [] y hy
  unfold domEntries at h
  obtain ⟨y, hy, hx⟩ := List.mem_filterMap.1 h
  have := key y (by rw [domainSegments_eq]; exact hy)
  repeat' split at hx
  all_goals simp at hx
  all_goals subst hx
  all_goals simp <;> omega

/-- what the items of a client are written as -/
theorem history_written {E : Env} {c : Client E} {fs : List Filter} (h : History E c fs) : WrittenClient c := by
  have hh := history_holds h
  have entry : ∀ s t, c.hs s = some t → ∀ i, ∀ g ∈ t.bucket i, ∃ pat, HasBareText g pat := by
    intro s t ht i g hg
    obtain ⟨f, hf, hd, rfl⟩ := mem_bare ((hh.hosts ht).sub i g hg)
    rcases (hh.index.parsed f hf).text with h | ⟨pat, h0, h⟩
    · exact absurd h hd
    · rw [bare_of_text h]
      exact ⟨pat, h0, ⟨[], by simp⟩, rfl⟩
  refine ⟨fun id f hf => ?_, fun s hs i _ => entry false s hs i, fun s hs i _ => entry true s hs i⟩
  have hp := hh.index.parsed f (hh.mem.1 hf).1
  rcases hp.text with h | ⟨pat, h0, h⟩
  · exact ⟨[], .inl ⟨h, rfl⟩⟩
  · exact ⟨pat, .inr ⟨h0, ⟨[], h⟩, .inl hp.dataLen⟩⟩

/-- what the comparison of answers needs to know about a reached client -/
theorem history_comparable {E : Env} {c : Client E} {fs : List Filter} (h : History E c fs) : Comparable c := by
  have hh := history_holds h
  have hsz := history_sized h
  have entry : ∀ s t, c.hs s = some t → ∀ i, ∀ g ∈ t.bucket i, ∃ pat, 0 ∉ pat ∧ g.data = some pat ∧ g.dataLen = some pat.length := by
    intro s t ht i g hg
    obtain ⟨f, hf, hd, rfl⟩ := mem_bare ((hh.hosts ht).sub i g hg)
    rcases (hh.index.parsed f hf).text with h | ⟨pat, h0, h⟩
    · exact absurd h hd
    · rw [bare_of_text h]
      exact ⟨pat, h0, rfl, rfl⟩
  refine ⟨fun id f hf => ?_, fun s hs => ⟨?_, fun i _ f hf => entry false s hs i f hf⟩,
    fun s hs => ⟨?_, fun i _ f hf => entry true s hs i f hf⟩, fun d s hs => ?_⟩
  · have hp := hh.index.parsed f (hh.mem.1 hf).1
    rcases hp.text with h | ⟨pat, h0, h⟩
    · exact .inl h
    · exact .inr ⟨pat, h0, ⟨[], h⟩, .inl hp.dataLen⟩
  · have := hsz.hostSet
    simp [Client.startBuild, hs] at this
    exact this.1
  · have := hsz.hostExceptionSet
    simp [Client.startBuild, hs] at this
    exact this.1
  · have := hsz.domSets d
    simp [Client.startBuild, hs] at this
    exact this.1

/-- rules that are left out are in an array that is left out -/
theorem leftOut_list {ic ih : Bool} {f : Filter} (h : LeftOut ic ih f) {bad : List Bytes} {id : ListId}
    (hc : classify bad f = .ok (.list id)) : ic = true ∧ id = .cosmetic ∨ ih = true ∧ id = .html := by
  by_cases he : f.filterType = FTEmpty
  · rw [classify_idle (.inl he)] at hc
    cases hc
  unfold classify at hc
  split at hc
  · cases hc
  · rcases h with ⟨h1, h | h⟩ | ⟨h1, h⟩ | h
    · simp only [h] at hc
      rw [if_neg (by decide), if_pos (by decide)] at hc
      cases hc
      exact .inl ⟨h1, rfl⟩
    · simp only [h] at hc
      rw [if_neg (by decide), if_neg (by decide), if_pos (by decide)] at hc
      cases hc
      exact .inl ⟨h1, rfl⟩
    · simp only [h] at hc
      rw [if_neg (by decide), if_neg (by decide), if_neg (by decide), if_pos (by decide)] at hc
      cases hc
      exact .inr ⟨h1, rfl⟩
    · exact absurd h he

/-- rules in the hash sets are not left out -/
theorem leftOut_kind {ic ih : Bool} {f : Filter} (h : LeftOut ic ih f) {s : Bool} (hk : Kind s f) : False := by
  unfold Kind at hk
  rcases h with ⟨_, h | h⟩ | ⟨_, h⟩ | h <;> rw [h] at hk <;> cases s <;> revert hk <;> decide

/-- reached clients with representable rules can be stored -/
theorem history_storable {E : Env} {c : Client E} {fs : List Filter} (h : History E c fs) {ic ih : Bool}
    (hr : ∀ f ∈ fs, LeftOut ic ih f ∨ Representable f)
    (hn : c.numHostAnchoredFilters < 2 ^ 31 ∧ c.numHostAnchoredExceptionFilters < 2 ^ 31) :
    StorableClient ic ih c := by
  have hh := history_holds h
  have hcl := history_clean h
  have hsz := history_sized h
  have entry : ∀ s t, c.hs s = some t → ∀ i, ∀ g ∈ t.bucket i, StorableEntry g := by
    intro s t ht i g hg
    obtain ⟨f, hf, rfl⟩ := List.mem_map.1 ((hh.hosts ht).sub i g hg)
    obtain ⟨hf, he⟩ := List.mem_filter.1 hf
    have he := (entered_iff (hh.index.parsed f hf) s).1 he
    rcases hr f hf with hl | hr
    · exact (leftOut_kind hl he.1).elim
    · exact (bare_storable (hh.index.parsed f hf) (hcl f hf) hr he.2.2).1
  have hcount : ∀ t, c.hostSet = some t → 0 < t.count ∧ t.count < 2 ^ 32 := by
    intro t ht
    have := hsz.hostSet
    simpa [Client.startBuild, ht] using this
  have hcountE : ∀ t, c.hostExceptionSet = some t → 0 < t.count ∧ t.count < 2 ^ 32 := by
    intro t ht
    have := hsz.hostExceptionSet
    simpa [Client.startBuild, ht] using this
  have hcountD : ∀ d t, c.domSets d = some t → 0 < t.count ∧ t.count < 2 ^ 32 := by
    intro d t ht
    have := hsz.domSets d
    simpa [Client.startBuild, ht] using this
  have rule : ∀ id, ∀ f ∈ kept ic ih c id, StorableRule f := by
    intro id f hf
    unfold kept at hf
    split at hf
    · simp at hf
    · rename_i hid
      obtain ⟨hf, hc⟩ := hh.mem.1 hf
      rcases hr f hf with hl | hr
      · exact absurd (leftOut_list hl hc) hid
      · exact parsed_storable (hh.index.parsed f hf) (hcl f hf) hr
  refine ⟨rule, hn, fun s hs => ⟨hcount s hs, fun i _ x hx => entry false s hs i x hx⟩,
    fun s hs => ⟨hcountE s hs, fun i _ x hx => entry true s hs i x hx⟩, fun d s hs => ⟨hcountD d s hs, ?_⟩⟩
  intro i _ x hx
  have hx := (hh.doms hs).sub i x hx
  obtain ⟨f, hf, hx⟩ := List.mem_flatMap.1 hx
  obtain ⟨hf, hdc⟩ := List.mem_filter.1 hf
  have hr : Representable f := by
    rcases hr f hf with hl | hr
    · unfold Filter.domClass at hdc
      split at hdc
      · rename_i id hc
        rcases leftOut_list hl hc with ⟨_, rfl⟩ | ⟨_, rfl⟩ <;> simp [ListId.domId] at hdc
      · cases hdc
    · exact hr
  unfold Filter.entries at hx
  cases hdl : f.domainList with
  | none => rw [hdl] at hx; simp at hx
  | some dl =>
    rw [hdl] at hx
    have := (hr.domains dl hdl).2.1
    have := domEntries_length (by simpa using hx : x ∈ domEntries dl)
    omega

end AdBlock
