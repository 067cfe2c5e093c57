import Verif.Model.Scripts
import Verif.SpecScripts
import Verif.Props.Reload
import Verif.Props.JsLib
import Verif.Props.Stats
import Verif.Props.Fingerprint
/-
C63 to C65: the programs around the library.
-/
namespace AdBlock
open Spec

theorem nodeMatches_ok {E : Env} {c c' : Client E} {site page : Bytes} {option : Mask} {b : Bool}
    (h : c.nodeMatches site option (some page) = .ok (b, c')) :
    ∃ o, c.query site option (some page) = .ok o ∧ b = o.block ∧ c' = { c with stats := o.stats, badFps := o.badFps } := by
  unfold Client.nodeMatches Client.matches at h
  obtain ⟨o, h1, h⟩ := Res.bind_eq_ok.1 h
  cases h
  exact ⟨o, h1, rfl, rfl⟩

theorem alike_judges {E : Env} {c d : Client E} (h : Alike c d) {option : Mask} {page site : Bytes} {b : Bool} :
    Judges d option page site b ↔ Judges c option page site b := by
  obtain ⟨st, bf, buf, rfl, hbf⟩ := h
  have := query_relabel c st bf buf (.inl hbf) site option (some page)
  unfold Judges
  cases h1 : (c.relabel st bf buf).query site option (some page) with
  | ub u =>
    rw [h1, Res.map_ub] at this
    cases h2 : c.query site option (some page) with
    | ub u' => simp
    | ok o => rw [h2, Res.map_ok] at this; cases this
  | ok o =>
    rw [h1, Res.map_ok] at this
    obtain ⟨o', h2, h3⟩ := Res.map_eq_ok.1 this.symm
    rw [h2]
    simp only [Outcome.answer, Answer.verdict.injEq] at h3
    simp [h3.1]

theorem pointwise_imp {A B : Type} {R S : A → B → Prop} (hRS : ∀ a b, R a b → S a b) {l : List A} {m : List B} (h : Pointwise R l m) :
    Pointwise S l m := by
  induction h with
  | nil => exact .nil
  | cons h _ ih => exact .cons (hRS _ _ h) ih

theorem askAll_ok {E : Env} {sites : List Bytes} {c c' : Client E} {option : Mask} {page : Bytes} {bs : List Bool}
    (h : c.askAll option page sites = .ok (bs, c')) :
    Alike c c' ∧ Pointwise (Judges c option page) sites bs ∧ ∀ fs, History E c fs → History E c' fs := by
  induction sites generalizing c bs with
  | nil => cases h; exact ⟨Alike.refl _, .nil, fun _ h => h⟩
  | cons site sites ih =>
    simp only [Client.askAll] at h
    obtain ⟨⟨b, c1⟩, h1, h⟩ := Res.bind_eq_ok.1 h
    obtain ⟨⟨bs1, c2⟩, h2, h⟩ := Res.bind_eq_ok.1 h
    cases h
    obtain ⟨o, e1, rfl, rfl⟩ := nodeMatches_ok h1
    obtain ⟨h3, h4, h5⟩ := ih h2
    have ha : Alike c { c with stats := o.stats, badFps := o.badFps } := ⟨o.stats, o.badFps, c.deserializedBuffer, rfl, query_badFps e1⟩
    refine ⟨ha.trans h3, .cons ⟨o, e1, rfl⟩ ?_, fun fs h => h5 fs (.query h h1)⟩
    exact pointwise_imp (fun _ _ h => (alike_judges ha).1 h) h4

theorem askAll_total {E : Env} {sites : List Bytes} {c : Client E} {option : Mask} {page : Bytes}
    (h : ∀ site ∈ sites, ∃ b, Judges c option page site b) : ∃ bs c', c.askAll option page sites = .ok (bs, c') := by
  induction sites generalizing c with
  | nil => exact ⟨_, _, rfl⟩
  | cons site sites ih =>
    obtain ⟨_, o, ho, -⟩ := h site (by simp)
    have h1 : c.nodeMatches site option (some page) = .ok (o.block, { c with stats := o.stats, badFps := o.badFps }) := by
      unfold Client.nodeMatches Client.matches pageArgument; dsimp only; rw [ho]; rfl
    have ha : Alike c { c with stats := o.stats, badFps := o.badFps } := ⟨o.stats, o.badFps, c.deserializedBuffer, rfl, query_badFps ho⟩
    obtain ⟨bs, c', h2⟩ := ih (c := { c with stats := o.stats, badFps := o.badFps }) fun s hs => by
      obtain ⟨b, hb⟩ := h s (by simp [hs])
      exact ⟨b, (alike_judges ha).2 hb⟩
    refine ⟨o.block :: bs, c', ?_⟩
    simp only [Client.askAll, h1, Res.bind_ok, h2]
    rfl

theorem alike_serialize {E : Env} {c d : Client E} (h : Alike c d) (ic ih : Bool) : d.serialize ic ih = c.serialize ic ih := by
  obtain ⟨st, bf, buf, rfl, _⟩ := h
  rfl

theorem enable_serialize {E : Env} (c : Client E) (ic ih : Bool) : c.enableBadFingerprintDetection.serialize ic ih = c.serialize ic ih := by
  unfold Client.enableBadFingerprintDetection
  split <;> rfl

theorem strings_history {E : Env} {keep : Bool} {texts : List Bytes} {c : Client E} (hc : makeClientFromStrings E keep texts = .ok c)
    (h0 : ∀ t ∈ texts, 0 ∉ t) : c.tags = [] ∧ ∃ fs, History E c fs ∧
      ∀ P : Filter → Prop, (∀ t ∈ texts, ∀ gs, Reads E.bad keep (lines t) gs → ∀ f ∈ gs, P f) → ∀ f ∈ fs, P f := by
  have key : ∀ (texts : List Bytes) (c0 c : Client E), texts.foldlM (fun c text => c.parse text keep) c0 = .ok c →
      (∀ t ∈ texts, 0 ∉ t) → ∀ fs0, History E c0 fs0 → c.tags = c0.tags ∧ ∃ fs, History E c (fs0 ++ fs) ∧
        ∀ P : Filter → Prop, (∀ t ∈ texts, ∀ gs, Reads E.bad keep (lines t) gs → ∀ f ∈ gs, P f) → ∀ f ∈ fs, P f := by
    intro texts
    induction texts with
    | nil => intro c0 c h _ fs0 hist; cases h; exact ⟨rfl, [], by simpa using hist, by simp⟩
    | cons t texts ih =>
      intro c0 c h h0 fs0 hist
      rw [List.foldlM_cons] at h
      obtain ⟨c1, h1, h⟩ := Res.bind_eq_ok.1 h
      obtain ⟨gs, hg, _⟩ := C20_arrays_filled h1
      obtain ⟨e, fs, h2, h3⟩ := ih c1 c h (fun t ht => h0 t (by simp [ht])) (fs0 ++ gs) (.parse hist (h0 t (by simp)) h1 hg)
      refine ⟨e.trans (parse_tags h1), gs ++ fs, by rw [← List.append_assoc]; exact h2, fun P hP f hf => ?_⟩
      rcases List.mem_append.1 hf with hf | hf
      · exact hP t (by simp) gs hg f hf
      · exact h3 P (fun t ht => hP t (by simp [ht])) f hf
  obtain ⟨e, fs, h1, h2⟩ := key texts _ c hc h0 [] .new
  exact ⟨e, fs, by simpa using h1, h2⟩

/-! ### C63: data files -/

/-- **C63**: the data do not depend on the sites that are checked in between, nor on the
detection of bad fingerprints. -/
theorem C63_sites_do_not_matter {E : Env} {texts sites : List Bytes} {r : DataFile} (h : generateDataFile E texts sites = .ok r) :
    ∃ c s, makeClientFromStrings E false texts = .ok c ∧ c.serialize true true = .ok s ∧ r.data = s.buffer := by
  unfold generateDataFile at h
  obtain ⟨c, h1, h⟩ := Res.bind_eq_ok.1 h
  obtain ⟨c2, h2, h⟩ := Res.bind_eq_ok.1 h
  obtain ⟨s, h3, h⟩ := Res.bind_eq_ok.1 h
  cases h
  unfold Client.checkSiteList at h2
  obtain ⟨⟨bs, c3⟩, h4, h2⟩ := Res.bind_eq_ok.1 h2
  cases h2
  rw [alike_serialize (askAll_ok h4).1, enable_serialize] at h3
  exact ⟨c, s, h1, h3, rfl⟩

/-- **C63**: a file is written whenever the texts can be loaded and the client answers for the
sites that are checked. -/
theorem C63_file_is_written {E : Env} {texts sites : List Bytes} {c : Client E} (hc : makeClientFromStrings E false texts = .ok c)
    (h0 : ∀ t ∈ texts, 0 ∉ t) (hs : ∀ site ∈ sites, ∃ o, c.query site 0 (some bs%"slashdot.org") = .ok o) :
    ∃ r, generateDataFile E texts sites = .ok r := by
  obtain ⟨-, fs, hist, -⟩ := strings_history hc h0
  obtain ⟨bs, c', h1⟩ := askAll_total (sites := sites) (c := c.enableBadFingerprintDetection) (option := noFilterOption)
    (page := bs%"slashdot.org") fun site hsite => by
      obtain ⟨o, ho⟩ := hs site hsite
      have := C29_detection_does_not_interfere hist site 0 (some bs%"slashdot.org")
      rw [ho, Res.map_ok] at this
      obtain ⟨o', h1, -⟩ := Res.map_eq_ok.1 this
      exact ⟨o'.block, o', h1, rfl⟩
  obtain ⟨s, h2, -⟩ := C38_size hist true true
  have h3 : c'.serialize true true = .ok s := by
    rw [alike_serialize (askAll_ok h1).1, enable_serialize, h2]
  refine ⟨⟨s.buffer, c'.badFps⟩, ?_⟩
  unfold generateDataFile Client.checkSiteList
  rw [hc, Res.bind_ok, h1, Res.bind_ok]
  dsimp only
  rw [Res.pure_eq, Res.bind_ok, h3, Res.bind_ok]
  rfl

/-- **C63**, with the restrictions of C35: a client made from the file answers every query like a
client made from the texts. -/
theorem C63_data_file_partial {E : Env} {texts sites : List Bytes} {c : Client E} {r : DataFile}
    (hg : generateDataFile E texts sites = .ok r) (hc : makeClientFromStrings E false texts = .ok c) (h0 : ∀ t ∈ texts, 0 ∉ t)
    (hr : ∀ t ∈ texts, ∀ fs, Reads E.bad false (lines t) fs → ∀ f ∈ fs, LeftOut true true f ∨ Representable f) (hfit : Fits c) :
    ∃ d, makeClientFromData E r.data = .ok (some d) ∧ ∀ url ctx dom, 0 ∉ url →
      (∀ o, c.query url ctx dom = .ok o → ∃ o', d.query url ctx dom = .ok o' ∧ SameOutcome o o') ∧
      (∀ o, c.findMatchingFilters url ctx dom = .ok o → ∃ o', d.findMatchingFilters url ctx dom = .ok o' ∧ SameFound o o') := by
  obtain ⟨c', s, h1, h2, h3⟩ := C63_sites_do_not_matter hg
  rw [hc] at h1
  cases h1
  obtain ⟨ht, fs, hist, hP⟩ := strings_history hc h0
  obtain ⟨s', e, hd⟩ := C37_round_trip_partial hist (hP _ hr) hfit.1
  rw [h2] at e
  cases e
  obtain ⟨d, h4, -, h5⟩ := hd (hfit.2 s h2) (Client.fresh E) []
  rw [List.append_nil] at h4
  refine ⟨d, by rw [h3]; exact h4, h5 ?_⟩
  rw [ht]
  exact fun t => Iff.rfl

/-- **C63** for the list of a region, with the restrictions of C35: a client made from its file answers
every query like a client which has loaded the list, and then the rules that unbreak sites. -/
theorem C63_region_partial {E : Env} {body unbreak : Bytes} {sites : List Bytes} {c c' : Client E} {r : DataFile}
    (hg : generateDataFile E (regionTexts none body unbreak) sites = .ok r)
    (hc : (Client.fresh E).parse body false = .ok c) (hc' : c.parse unbreak false = .ok c') (h0 : 0 ∉ body) (h0' : 0 ∉ unbreak)
    (hr : ∀ fs, Reads E.bad false (lines body) fs → ∀ f ∈ fs, LeftOut true true f ∨ Representable f)
    (hr' : ∀ fs, Reads E.bad false (lines unbreak) fs → ∀ f ∈ fs, LeftOut true true f ∨ Representable f) (hfit : Fits c') :
    ∃ d, makeClientFromData E r.data = .ok (some d) ∧ ∀ url ctx dom, 0 ∉ url →
      (∀ o, c'.query url ctx dom = .ok o → ∃ o', d.query url ctx dom = .ok o' ∧ SameOutcome o o') ∧
      (∀ o, c'.findMatchingFilters url ctx dom = .ok o → ∃ o', d.findMatchingFilters url ctx dom = .ok o' ∧ SameFound o o') := by
  have key : makeClientFromStrings E false (regionTexts none body unbreak) = .ok c' := by
    unfold makeClientFromStrings regionTexts
    rw [List.foldlM_cons, hc, Res.bind_ok, List.foldlM_cons, hc', Res.bind_ok]
    rfl
  have two : ∀ {P : Bytes → Prop}, P body → P unbreak → ∀ t ∈ regionTexts none body unbreak, P t := by
    intro P h h' t ht
    simp only [regionTexts, List.mem_cons, List.not_mem_nil, or_false] at ht
    rcases ht with rfl | rfl
    · exact h
    · exact h'
  exact C63_data_file_partial hg key (two h0 h0') (two hr hr') hfit

theorem SameMeaning.symm {s : Bool} {fs gs : List Filter} (h : SameMeaning s fs gs) : SameMeaning s gs fs :=
  ⟨fun f hk => (h.mem f hk).symm, h.hosts.symm⟩

theorem alike_listTexts (s : Bool) (bad : List Bytes) (pr : Bool) {bodies : List Bytes} (hne : bodies ≠ []) :
    SameMeaning s (readText bad pr (jsJoin (bodies.map (singleListData none)))) (readText bad pr (listURLsText none bodies)) := by
  have h := alike_sanitize s bad pr (jsJoin (bodies.map (singleListData none)))
  refine SameMeaning.symm (h.trans ?_)
  rw [readText_jsJoin bad pr (by simpa using hne), List.flatMap_map]
  clear h
  induction bodies with
  | nil => exact absurd rfl hne
  | cons b bs ih =>
    rw [List.flatMap_cons]
    have hb : SameMeaning s (readText bad pr (singleListData none b)) (readText bad pr b ++ extraRules bad pr) := alike_sanitize s bad pr b
    refine ⟨fun f hk => ?_, ?_⟩
    · simp only [List.mem_append]
      constructor
      · rintro (h | h)
        · exact h
        · exact .inl ((hb.mem f hk).2 (List.mem_append_right _ h))
      · exact .inl
    · simp only [List.filter_append, extraRules_hosts, List.append_nil]

/-- **C63** for the lists without a function of their own (all but one): the file made of them has
the same verdicts as a client which `makeAdBlockClientFromListURL` makes of these lists, although
the texts are preprocessed differently. -/
theorem C63_lists_partial {E : Env} {lists : List (Bytes × Bytes)} {sites : List Bytes} {c c' : Client E} {r : DataFile}
    (hne : lists ≠ []) (hf : ∀ l ∈ lists, getListFilterFunction l.1 = none) (h0 : ∀ l ∈ lists, 0 ∉ l.2)
    (hg : generateDataFile E (listTexts lists) sites = .ok r) (hc' : makeClientFromStrings E false (listTexts lists) = .ok c')
    (hr : ∀ t ∈ listTexts lists, ∀ fs, Reads E.bad false (Spec.lines t) fs → ∀ f ∈ fs, LeftOut true true f ∨ Representable f) (hfit : Fits c')
    (hc : (Client.fresh E).parse (listURLsText none (lists.map (·.2))) false = .ok c) :
    ∃ d, makeClientFromData E r.data = .ok (some d) ∧
      ∀ url ctx dom, WebUrl url → 5 < url.length → 0 ∉ url → E.fp.rolls url →
        (dom = none → ∀ s, NoEmptyExclusion E.bad s (readText E.bad false (listURLsText none (lists.map (·.2))))) →
        ∀ o o', c.query url ctx dom = .ok o → c'.query url ctx dom = .ok o' →
          ∃ o'', d.query url ctx dom = .ok o'' ∧ o''.block = o.block := by
  have htexts : listTexts lists = (lists.map (·.2)).map (singleListData none) := by
    unfold listTexts
    rw [List.map_map]
    exact List.map_congr_left fun l hl => by
      show singleListData (getListFilterFunction l.1) l.2 = _
      rw [hf l hl]; rfl
  have hbodies : ∀ b ∈ lists.map (·.2), 0 ∉ b := by
    intro b hb
    obtain ⟨l, hl, rfl⟩ := List.mem_map.1 hb
    exact h0 l hl
  have hno : ∀ t ∈ listTexts lists, 0 ∉ t := by
    rw [htexts]
    intro t ht
    obtain ⟨b, hb, rfl⟩ := List.mem_map.1 ht
    exact sanitize_no_nul (hbodies b hb)
  obtain ⟨d, h1, h2⟩ := C63_data_file_partial hg hc' hno hr hfit
  have hp := (C48_array_of_lists E false (by rw [htexts]; simpa using hne) c').1 hc'
  refine ⟨d, h1, fun url ctx dom hw hl hu hroll hempty o o' hq hq' => ?_⟩
  obtain ⟨o'', h3, h4⟩ := (h2 url ctx dom hu).1 o' hq'
  refine ⟨o'', h3, h4.block.trans ?_⟩
  rw [htexts] at hp
  exact (alike_texts .new (jsJoin_no_nul (by rw [← htexts]; exact hno))
    (sanitize_no_nul (jsJoin_no_nul (by rw [← htexts]; exact hno)))
    (fun s => alike_listTexts s _ _ (by simpa using hne)) hp hc hw hl hu hroll hempty hq' hq).symm

/-- **C63** for `checkForClient` in main.cc, with the restrictions of C35: the client which has
loaded the data prints the same answers as the one they come from, and these are the answers to
each question alone.  The file contains the data of this client. -/
theorem C63_sample_partial {E : Env} {c : Client E} {fs : List Filter} (hist : History E c fs) (hr : ∀ f ∈ fs, LeftOut true true f ∨ Representable f)
    (ht : c.tags = []) (hfit : Fits c) {urls : List Bytes}
    (hu : ∀ url ∈ urls, 0 ∉ url ∧ ∃ o, c.query url 0 (some bs%"slashdot.org") = .ok o) :
    ∃ r, c.checkForClient urls = .ok r ∧ Pointwise (Judges c 0 bs%"slashdot.org") urls r.first ∧ r.second = some r.first ∧
      ∃ s, c.serialize true true = .ok s ∧ r.data = s.buffer := by
  obtain ⟨bs, c', h1⟩ := askAll_total (sites := urls) (c := c) (option := noFilterOption) (page := bs%"slashdot.org") fun url h => by
    obtain ⟨o, ho⟩ := (hu url h).2
    exact ⟨o.block, o, ho, rfl⟩
  obtain ⟨ha, hj, -⟩ := askAll_ok h1
  obtain ⟨s, e, hd⟩ := C37_round_trip_partial hist hr hfit.1
  have hd := hd (hfit.2 s e)
  obtain ⟨d, h2, t2, -⟩ := hd (Client.fresh E) []
  rw [List.append_nil] at h2
  obtain ⟨d2, h3, t3, h4⟩ := hd d []
  rw [List.append_nil] at h3
  have h4 := h4 (by rw [t2, ht]; exact fun t => Iff.rfl)
  have hsame : ∀ url ∈ urls, ∀ b, Judges c noFilterOption bs%"slashdot.org" url b → Judges d2 noFilterOption bs%"slashdot.org" url b := by
    rintro url hm b ⟨o, ho, rfl⟩
    obtain ⟨o', h5, h6⟩ := (h4 url noFilterOption (some bs%"slashdot.org") (hu url hm).1).1 o ho
    exact ⟨o', h5, h6.block⟩
  obtain ⟨bs2, d3, h5⟩ := askAll_total (sites := urls) (c := d2) (option := noFilterOption) (page := bs%"slashdot.org") fun url h => by
    obtain ⟨o, ho⟩ := (hu url h).2
    exact ⟨o.block, hsame url h _ ⟨o, ho, rfl⟩⟩
  have hj2 := (askAll_ok h5).2.1
  have heq : bs2 = bs := by
    clear h1 h5
    induction hj generalizing bs2 with
    | nil => cases hj2; rfl
    | @cons url b us bs hb _ ih =>
      cases hj2 with
      | @cons _ b2 _ bs2 hb2 hrest =>
        obtain ⟨o, ho, rfl⟩ := hsame _ (by simp) _ hb
        obtain ⟨o2, ho2, rfl⟩ := hb2
        rw [ho] at ho2
        cases ho2
        rw [ih (fun u hm => hu u (by simp [hm])) (fun u hm => hsame u (by simp [hm])) bs2 hrest]
  refine ⟨⟨bs, s.buffer, some bs2⟩, ?_, hj, by rw [heq], s, e, rfl⟩
  unfold Client.checkForClient
  rw [h1, Res.bind_ok]
  dsimp only
  rw [alike_serialize ha, e, Res.bind_ok, h2, Res.bind_ok]
  dsimp only
  rw [h3, Res.bind_ok]
  dsimp only
  rw [h5, Res.bind_ok]
  rfl

/-- the client of the examples: it is made of a list of two rules, and answers for two sites -/
theorem stored_client : ∃ c : Client toyEnv, makeClientFromStrings toyEnv false [storedList₀] = .ok c ∧ Fits c ∧ c.tags = [] ∧
    History toyEnv c storedRules ∧ (∀ f ∈ storedRules, Representable f) ∧
    ∀ site ∈ [bs%"https://a.com/banner", bs%"https://a.com/"], 0 ∉ site ∧ ∃ o, c.query site 0 (some bs%"slashdot.org") = .ok o := by
  obtain ⟨c, h, hr, hn, ht, hs, hp⟩ := stored_history
  refine ⟨c, (C48_array_of_lists toyEnv false (by simp) c).2 hp, ⟨hn, fun s e => ?_⟩, ht, h, hr, ?_⟩
  · rw [serialize_eq (history_written h)] at e
    cases e
    exact hs true true
  · have key : ∀ site, ((Client.fresh toyEnv).parse storedList₀ false >>= fun c => c.query site 0 (some bs%"slashdot.org")).isOk = true →
        ∃ o, c.query site 0 (some bs%"slashdot.org") = .ok o := by
      intro site hk
      obtain ⟨o, ho⟩ := Res.isOk_iff.1 hk
      rw [hp] at ho
      exact ⟨o, ho⟩
    intro site hm
    simp only [List.mem_cons, List.not_mem_nil, or_false] at hm
    rcases hm with rfl | rfl
    · exact ⟨by decide +kernel, key _ (by decide +kernel)⟩
    · exact ⟨by decide +kernel, key _ (by decide +kernel)⟩

theorem stored_reads {pr : Bool} (hpr : pr = false) {fs : List Filter} (h : Reads toyEnv.bad pr (Spec.lines storedList₀) fs) : fs = storedRules := by
  subst hpr
  refine reads_unique h ?_
  rw [show Spec.lines storedList₀ = [bs%"banner", bs%"@@goodies$script,tag=x"] by decide +kernel]
  exact .cons (e := .addFingerprint bs%"banner") (by decide +kernel)
    (.cons (e := .addExceptionFingerprint bs%"goodie") (by decide +kernel) .nil)

/-- the hypotheses of C63 can be met: a file is written, loaded and answers -/
example : ∃ (c d : Client toyEnv) (r : DataFile), makeClientFromStrings toyEnv false [storedList₀] = .ok c ∧
    generateDataFile toyEnv [storedList₀] [bs%"https://a.com/banner", bs%"https://a.com/"] = .ok r ∧
    makeClientFromData toyEnv r.data = .ok (some d) ∧
    ∃ o o', c.query bs%"https://a.com/banner" 0 (some bs%"slashdot.org") = .ok o ∧
      d.query bs%"https://a.com/banner" 0 (some bs%"slashdot.org") = .ok o' ∧ SameOutcome o o' := by
  obtain ⟨c, hc, hfit, ht, hist, hrep, hs⟩ := stored_client
  have h0 : ∀ t ∈ [storedList₀], 0 ∉ t := by decide +kernel
  obtain ⟨r, hg⟩ := C63_file_is_written hc h0 fun site hm => (hs site hm).2
  obtain ⟨d, h1, h2⟩ := C63_data_file_partial hg hc h0 (fun t ht fs hf => by
    rw [List.mem_singleton.1 ht] at hf
    rw [stored_reads rfl hf]
    exact fun f hf => .inr (hrep f hf)) hfit
  obtain ⟨h3, o, ho⟩ := hs bs%"https://a.com/banner" (by simp)
  obtain ⟨o', h4, h5⟩ := (h2 _ 0 (some bs%"slashdot.org") h3).1 o ho
  exact ⟨c, d, r, hc, hg, h1, o, o', ho, h4, h5⟩

/-- and those for a region: the list and the rules that unbreak sites are one rule each -/
example : ∃ (c c' d : Client toyEnv) (r : DataFile), (Client.fresh toyEnv).parse bs%"banner" false = .ok c ∧
    c.parse bs%"@@goodies$script,tag=x" false = .ok c' ∧
    generateDataFile toyEnv (regionTexts none bs%"banner" bs%"@@goodies$script,tag=x") [bs%"https://a.com/banner"] = .ok r ∧
    makeClientFromData toyEnv r.data = .ok (some d) ∧
    ∃ o o', c'.query bs%"https://a.com/banner" 0 (some bs%"slashdot.org") = .ok o ∧
      d.query bs%"https://a.com/banner" 0 (some bs%"slashdot.org") = .ok o' ∧ SameOutcome o o' := by
  obtain ⟨c', hc, hfit, ht, hist, hrep, hs⟩ := stored_client
  have hj : makeClientFromStrings toyEnv false (regionTexts none bs%"banner" bs%"@@goodies$script,tag=x") = .ok c' := by
    have h : (Client.fresh toyEnv).parse (jsJoin [storedList₀]) false = .ok c' := (C48_array_of_lists toyEnv false (by simp) c').1 hc
    exact (C48_array_of_lists toyEnv false (by simp [regionTexts]) c').2 h
  have h0 : ∀ t ∈ regionTexts none bs%"banner" bs%"@@goodies$script,tag=x", 0 ∉ t := by decide +kernel
  obtain ⟨r, hg⟩ := C63_file_is_written hj h0 (sites := [bs%"https://a.com/banner"])
    fun site hm => (hs site (by rw [List.mem_singleton.1 hm]; simp)).2
  have hj2 := hj
  unfold makeClientFromStrings regionTexts at hj2
  rw [List.foldlM_cons] at hj2
  obtain ⟨c, h1, hj2⟩ := Res.bind_eq_ok.1 hj2
  rw [List.foldlM_cons] at hj2
  obtain ⟨c2, h2, hj2⟩ := Res.bind_eq_ok.1 hj2
  cases hj2
  obtain ⟨d, h3, h4⟩ := C63_region_partial hg h1 h2 (by decide) (by decide) (fun fs hf f hm => by
      rw [reads_unique hf (gs := storedRules.take 1) (.cons (e := .addFingerprint bs%"banner") (by decide +kernel) .nil)] at hm
      exact .inr (hrep f (List.mem_of_mem_take hm)))
    (fun fs hf f hm => by
      rw [reads_unique hf (gs := storedRules.drop 1) (.cons (e := .addExceptionFingerprint bs%"goodie") (by decide +kernel) .nil)] at hm
      exact .inr (hrep f (List.mem_of_mem_drop hm))) hfit
  obtain ⟨h5, o, ho⟩ := hs bs%"https://a.com/banner" (by simp)
  obtain ⟨o', h6, h7⟩ := (h4 _ 0 (some bs%"slashdot.org") h5).1 o ho
  exact ⟨c, _, d, r, h1, h2, hg, h3, o, o', ho, h6, h7⟩

example : ∃ (c : Client toyEnv) (r : Checked), c.checkForClient [bs%"https://a.com/banner", bs%"https://a.com/"] = .ok r ∧
    r.second = some r.first := by
  obtain ⟨c, hc, hfit, ht, hist, hrep, hs⟩ := stored_client
  obtain ⟨r, h1, -, h2, -⟩ := C63_sample_partial hist (fun f hf => .inr (hrep f hf)) ht hfit hs
  exact ⟨c, r, h1, h2⟩

/-- **C63** fails for a list with the UUID of the malware hosts, if the text downloaded ends with a line
feed and a site without a host is checked: making the file reads behind a rule.  (At this commit no
such list is in the tables, see `C68_malware_counterexample`.) -/
theorem C63_malware_counterexample :
    (fun r => r.data.length) <$> generateDataFile toyEnv
      (listTexts [(bs%"FBB430E8-3910-4761-9373-840FC3B43FF2", bs%"# 1\n# 2\n# 3\n# 4\nads.example.com\ntracker.net\n")]) [bs%"http://"] =
    .ub .oobRead := by
  decide +kernel

/-! ### C64: counting -/

/-- how many of the answers are `b` -/
theorem checkList_counts {E : Env} {sites : List Bytes} {c c' : Client E} {option : Mask} {host : Bytes} {n m : CheckCounts}
    (h : c.checkList option host sites n = .ok (m, c')) : ∃ bs, c.askAll option host sites = .ok (bs, c') ∧
      m = ⟨n.matching + bs.count true, n.skipped + bs.count false⟩ := by
  induction sites generalizing c n with
  | nil => cases h; exact ⟨[], rfl, rfl⟩
  | cons site sites ih =>
    simp only [Client.checkList] at h
    obtain ⟨⟨b, c1⟩, h1, h⟩ := Res.bind_eq_ok.1 h
    obtain ⟨bs, h2, h3⟩ := ih h
    refine ⟨b :: bs, ?_, ?_⟩
    · simp only [Client.askAll, h1, Res.bind_ok, h2]
      rfl
    · rw [h3]
      cases b
      · simp only [Bool.false_eq_true, ↓reduceIte, List.count_cons, CheckCounts.mk.injEq]
        constructor <;> simp <;> omega
      · simp only [↓reduceIte, List.count_cons, CheckCounts.mk.injEq]
        constructor <;> simp <;> omega

/-- **C64** without `--discover`: the numbers are those of the sites which the client, asked about
each of them alone, blocks and does not block. -/
theorem C64_counts {E : Env} {sites : List Bytes} {c c' : Client E} {option : Mask} {host : Bytes} {m : CheckCounts}
    (h : c.checkList option host sites {} = .ok (m, c')) : ∃ bs, Pointwise (Judges c option host) sites bs ∧
      m.matching = bs.count true ∧ m.skipped = bs.count false ∧ m.matching + m.skipped = sites.length := by
  obtain ⟨bs, h1, rfl⟩ := checkList_counts h
  have hp := (askAll_ok h1).2.1
  refine ⟨bs, hp, by simp, by simp, ?_⟩
  clear h1 h
  induction hp with
  | nil => rfl
  | @cons a b l m _ _ ih =>
    cases b <;> simp only [List.count_cons, List.length_cons] <;> simp at ih ⊢ <;> omega

example : ∃ (m : CheckCounts) (c' : Client toyEnv), ((Client.fresh toyEnv).parse bs%"banner" false >>= fun c =>
    c.checkList FOScript bs%"b.com" [bs%"http://a.com/banner", bs%"http://a.com/", bs%"http://a.com/banner2"] {}) = .ok (m, c') ∧
    m = ⟨2, 1⟩ := by
  have : Prod.fst <$> ((Client.fresh toyEnv).parse bs%"banner" false >>= fun c =>
    c.checkList FOScript bs%"b.com" [bs%"http://a.com/banner", bs%"http://a.com/", bs%"http://a.com/banner2"] {}) = .ok ⟨2, 1⟩ := by
    decide +kernel
  obtain ⟨⟨m, c'⟩, h1, h2⟩ := Res.map_eq_ok.1 this
  exact ⟨m, c', h1, h2⟩

/-- **C64** fails with `--discover`: all sites are counted as matching, whatever the client answers. -/
theorem C64_discover_counterexample {E : Env} {sites : List Bytes} {c : Client E} {option : Mask} {host : Bytes} {cache : Bool} {m : CheckCounts}
    (h : c.checkListDiscover option host cache sites [] {} = .ok m) : m = ⟨sites.length, 0⟩ := by
  have key : ∀ (sites : List Bytes) (t : List (Bytes × Bool)) (n m : CheckCounts), (∀ x ∈ t, x.2 = true) →
      c.checkListDiscover option host cache sites t n = .ok m → m = ⟨n.matching + sites.length, n.skipped⟩ := by
    intro sites
    induction sites with
    | nil => intro t n m _ h; cases h; rfl
    | cons site sites ih =>
      intro t n m ht h
      simp only [Client.checkListDiscover] at h
      cases hl : (if cache then t.lookup site else none) with
      | none =>
        rw [hl] at h
        obtain ⟨found, _, h⟩ := Res.bind_eq_ok.1 h
        rw [if_pos (show found.truthy = true from rfl)] at h
        rw [ih _ _ _ (by simpa using ht) h, List.length_cons]
        simp only [CheckCounts.mk.injEq, and_true]
        omega
      | some b =>
        have hb : b = true := by
          split at hl
          · have : (site, b) ∈ t := by
              clear h ih ht
              induction t with
              | nil => cases hl
              | cons x t ih =>
                rw [List.lookup_cons] at hl
                split at hl
                · rename_i hx
                  cases hl
                  simp only [beq_iff_eq] at hx
                  rw [hx]; simp
                · exact List.mem_cons_of_mem _ (ih hl)
            exact ht _ this
          · cases hl
        subst hb
        rw [hl] at h
        rw [ih _ _ _ ht h, List.length_cons]
        simp only [CheckCounts.mk.injEq, and_true]
        omega
  have := key sites [] {} m (by simp) h
  simpa using this

/-- none of the sites is to be blocked, but they are counted as matching -/
example : ((Client.fresh toyEnv).parse bs%"banner" false >>= fun c =>
    c.checkListDiscover FOScript bs%"b.com" true [bs%"http://a.com/x", bs%"http://a.com/", bs%"http://a.com/x"] [] {}) = .ok ⟨3, 0⟩ := by
  decide +kernel

/-! ### C65: the header with bad fingerprints -/

theorem readStrings_literal {w : Bytes} (h : LiteralText w) (v rest : Bytes) :
    readStrings (.inside v) (w ++ ch%'"' :: rest) = readStrings (.behind (v ++ w)) rest := by
  induction w generalizing v with
  | nil => simp [readStrings]
  | cons c w ih =>
    obtain ⟨h1, h2, h3⟩ := h c (by simp)
    rw [List.cons_append, readStrings, if_neg h1, if_neg h2, if_neg h3, ih fun x hx => h x (by simp [hx])]
    simp

theorem readStrings_list {fps : List Bytes} (h : ∀ w ∈ fps, LiteralText w) (rest : Bytes) :
    readStrings .before (fps.flatMap (fun fp => bs%"\"" ++ fp ++ bs%"\",\n") ++ ch%'}' :: rest) = some fps := by
  induction fps with
  | nil => rfl
  | cons w fps ih =>
    have e : (w :: fps).flatMap (fun fp => bs%"\"" ++ fp ++ bs%"\",\n") ++ ch%'}' :: rest =
        ch%'"' :: (w ++ ch%'"' :: (ch%',' :: 10 :: (fps.flatMap (fun fp => bs%"\"" ++ fp ++ bs%"\",\n") ++ ch%'}' :: rest))) := by
      simp
    rw [e, show ∀ s, readStrings .before (ch%'"' :: s) = readStrings (.inside []) s from fun _ => rfl,
      readStrings_literal (h w (by simp)), List.nil_append,
      show ∀ v s, readStrings (.behind v) (ch%',' :: 10 :: s) = (readStrings .before s).map (v :: ·) from fun _ _ => rfl,
      ih fun x hx => h x (by simp [hx])]
    rfl

/-- **C65** for strings without quotes, backslashes and line feeds: the strings that the compiler
reads in the header are the ones in the set, in order. -/
theorem C65_header_partial {fps : List Bytes} (h : ∀ w ∈ fps, LiteralText w) : firstArray (badFingerprintsHeader fps) = some fps := by
  unfold firstArray
  have e : ((badFingerprintsHeader fps).dropWhile (· ≠ ch%'{')).drop 1 =
      10 :: (fps.flatMap (fun fp => bs%"\"" ++ fp ++ bs%"\",\n") ++ ch%'}' :: (bs%";\n\n" ++ bs%"const char *badSubstrings[] = {\"http\", \"www\" };\n")) := by
    unfold badFingerprintsHeader
    generalize fps.flatMap (fun fp => bs%"\"" ++ fp ++ bs%"\",\n") = x
    have e : bs%"#pragma once\n" ++ bs%"/**\n  *\n  * Auto generated bad filters\n  */\n" ++ bs%"const char *badFingerprints[] = {\n" =
        (bs%"#pragma once\n" ++ bs%"/**\n  *\n  * Auto generated bad filters\n  */\n" ++ bs%"const char *badFingerprints[] = ") ++
          [ch%'{', 10] := by decide +kernel
    rw [e, List.append_assoc, List.append_assoc, List.append_assoc, List.dropWhile_append_of_pos (by decide +kernel)]
    rfl
  rw [e, show ∀ s, readStrings .before (10 :: s) = readStrings .before s from fun _ => rfl]
  exact readStrings_list h _

example : firstArray (badFingerprintsHeader [bs%"ttp://", bs%"/walma"]) = some [bs%"ttp://", bs%"/walma"] :=
  C65_header_partial (by unfold LiteralText; decide +kernel)

/-- the built-in fingerprints are among the collected ones -/
theorem built_in_kept {E : Env} {ops : List Op} {c0 c : Client E} {as : List Answer} (h : run c0 ops = .ok (as, c))
    (h0 : ∀ l, c0.badFps = some l → ∀ w ∈ E.bad, w ∈ l) {l : List Bytes} (hl : c.badFps = some l) : ∀ w ∈ E.bad, w ∈ l := by
  induction ops generalizing c0 as with
  | nil => cases h; exact h0 l hl
  | cons op ops ih =>
    obtain ⟨a, as', c1, _, h1, h2⟩ := run_cons_ok h
    refine ih h2 fun l1 hl1 w hw => ?_
    rcases step_collected h1 hl1 with h3 | ⟨l0, w0, _, _, _, h3, rfl, _⟩ | ⟨_, _, _, h3⟩
    · exact h0 l1 h3 w hw
    · exact List.mem_append_left _ (h0 l0 h3 w hw)
    · exact (h3 w).2 hw

/-- **C65** as far as it goes: after any sequence of operations with texts without quotes,
backslashes and line feeds, the compiler reads in the header the fingerprints collected.  These
include the built-in ones, and a program built with the header uses none of them. -/
theorem C65_regenerated_partial {E : Env} {ops : List Op} {c : Client E} {as : List Answer} (h : run (Client.fresh E) ops = .ok (as, c))
    {l : List Bytes} (hl : c.badFps = some l) (hb : ∀ w ∈ E.bad, LiteralText w)
    (hu : ∀ url ctx dom, Op.matches url ctx dom ∈ ops → LiteralText url) :
    ∃ text, c.generateBadFingerprintsHeader = .ok text ∧ firstArray text = some l ∧ (∀ w ∈ E.bad, w ∈ l) ∧
      ∀ s w, getFingerprintStr l s = some w → w ∉ l := by
  refine ⟨badFingerprintsHeader l, by unfold Client.generateBadFingerprintsHeader; rw [hl]; rfl, C65_header_partial fun w hw => ?_,
    built_in_kept h (by intro l h; cases h) hl, fun s w hs hw => ?_⟩
  · rcases (C54_origin h hl).2 w hw with h1 | ⟨_, url, ctx, dom, h1, h2⟩
    · exact hb w h1
    · exact fun x hx => hu url ctx dom h1 x (h2.subset hx)
  · exact (((C16_leftmost_usable_window l s).1 w).1 hs).1.2.2.2.2 w hw (List.prefix_refl w)

/-- operations that collect a fingerprint with a quote, and one with a backslash -/
def quoteRun : List Op :=
  [.enableBadFingerprintDetection, .parse bs%"ad\"banner$script" false, .matches bs%"http://a.com/ad\"banner" FOImage none]
def backslashRun : List Op :=
  [.enableBadFingerprintDetection, .parse bs%"ad\\banner$script" false, .matches bs%"http://a.com/ad\\banner" FOImage none]

example : (do
    let x ← run (Client.fresh toyEnv) collectingRun
    let text ← x.2.generateBadFingerprintsHeader
    pure (x.2.badFps, firstArray text)) =
    .ok (some (toyEnv.bad ++ [bs%"adbann", bs%"goodon"]), some (toyEnv.bad ++ [bs%"adbann", bs%"goodon"])) := by decide +kernel

/-- **C65** fails for a fingerprint with a quote: the header cannot be compiled. -/
theorem C65_quote_counterexample : (do
    let x ← run (Client.fresh toyEnv) quoteRun
    let text ← x.2.generateBadFingerprintsHeader
    pure (x.2.badFps, firstArray text)) = .ok (some (toyEnv.bad ++ [bs%"ad\"ban"]), none) := by decide +kernel

/-- **C65** fails for a fingerprint with a backslash: the compiler reads another string. -/
theorem C65_backslash_counterexample : (do
    let x ← run (Client.fresh toyEnv) backslashRun
    let text ← x.2.generateBadFingerprintsHeader
    pure (x.2.badFps, firstArray text)) =
      .ok (some (toyEnv.bad ++ [bs%"ad\\ban"]), some (toyEnv.bad ++ [bs%"ad" ++ 8 :: bs%"an"])) := by decide +kernel

/-- **C65** fails if the detection has not been enabled: a null pointer is dereferenced. -/
theorem C65_not_enabled_counterexample (E : Env) : (Client.fresh E).generateBadFingerprintsHeader = .ub .nullDeref := rfl

end AdBlock
