import Verif.SpecPrograms
import Verif.Props.Check
/-
C73: the programs main.cc and perf.cc as a whole; and C63 for data files made of several lists, from their text.
-/
namespace AdBlock
open Spec

/-! ### Words -/

theorem isSpace_iff (c : Byte) : isSpace c = true ↔ Space c := by
  revert c
  refine byte_forall ?_
  unfold isSpace Space
  decide +kernel

theorem wordsFrom_spaces {s : Bytes} (h : ∀ c ∈ s, Space c) (t : Bytes) : wordsFrom [] (s ++ t) = wordsFrom [] t := by
  induction s with
  | nil => rfl
  | cons c s ih =>
    rw [List.cons_append, wordsFrom, if_pos ((isSpace_iff c).2 (h c (by simp))), if_pos rfl]
    exact ih fun c hc => h c (by simp [hc])

theorem wordsFrom_word {w : Bytes} (h : ∀ c ∈ w, ¬ Space c) (v t : Bytes) : wordsFrom v (w ++ t) = wordsFrom (v ++ w) t := by
  induction w generalizing v with
  | nil => simp
  | cons c w ih =>
    rw [List.cons_append, wordsFrom, if_neg (fun h' => h c (by simp) ((isSpace_iff c).1 h')), ih fun c hc => h c (by simp [hc])]
    simp

/-- **C73**: the sites are the words of the list of sites. -/
theorem C73_words (text : Bytes) (ws : List Bytes) : wordsFrom [] text = ws ↔ WordsOf text ws := by
  constructor
  · rintro rfl
    have key : ∀ (text s w : Bytes), (∀ c ∈ s, Space c) → (∀ c ∈ w, ¬ Space c) → (w = [] ∨ w ≠ []) →
        WordsOf (s ++ w ++ text) (wordsFrom w text) := by
      intro text
      induction text with
      | nil =>
        intro s w hs hw _
        rw [List.append_nil, wordsFrom]
        split
        · next h => subst h; rw [List.append_nil]; exact .none hs
        · next h => exact .last hs h hw
      | cons c text ih =>
        intro s w hs hw _
        rw [wordsFrom]
        split
        · next hc =>
          have hc := (isSpace_iff c).1 hc
          split
          · next h =>
            subst h
            have := ih (s ++ [c]) [] (by
              intro x hx
              rcases List.mem_append.1 hx with hx | hx
              · exact hs x hx
              · rw [List.mem_singleton.1 hx]; exact hc) (by simp) (.inl rfl)
            simpa using this
          · next h => exact .cons hs h hw hc (ih [] [] (by simp) (by simp) (.inl rfl))
        · next hc =>
          have hc : ¬ Space c := fun h => hc ((isSpace_iff c).2 h)
          have := ih s (w ++ [c]) hs (by
              intro x hx
              rcases List.mem_append.1 hx with hx | hx
              · exact hw x hx
              · rw [List.mem_singleton.1 hx]; exact hc) (.inr (by simp))
          simpa using this
    exact key text [] [] (by simp) (by simp) (.inl rfl)
  · intro h
    induction h with
    | @none s hs => simpa [wordsFrom] using wordsFrom_spaces hs []
    | @last s w hs hne hw =>
      rw [wordsFrom_spaces hs]
      have := wordsFrom_word hw [] []
      rw [List.append_nil] at this
      rw [this, List.nil_append, wordsFrom, if_neg hne]
    | @cons s w c t ws hs hne hw hc _ ih =>
      rw [List.append_assoc, wordsFrom_spaces hs, wordsFrom_word hw, List.nil_append, wordsFrom, if_pos ((isSpace_iff c).2 hc),
        if_neg hne, ih]

example : WordsOf bs%"http://a.com/\n\n http://b.com/x\n" [bs%"http://a.com/", bs%"http://b.com/x"] :=
  (C73_words _ _).1 (by decide +kernel)

/-! ### Several lists -/

theorem load_each {E : Env} {texts : List Bytes} {rss : List (List RuleText)} (ht : TextsOf texts rss)
    {c : Client E} {fs : List Filter} (hist : History E c fs) (hs : SoundList E.bad rss.flatten) (pr : Bool) :
    ∃ c' gs, texts.foldlM (fun c text => c.parse text pr) c = .ok c' ∧ History E c' (fs ++ gs) ∧ LoadedIn gs rss.flatten ∧
      c'.tags = c.tags ∧ (Pointwise SavableList texts rss → ∀ f ∈ gs, LeftOut true true f ∨ Representable f) := by
  unfold TextsOf at ht
  induction ht generalizing c fs with
  | nil => exact ⟨c, [], rfl, by simpa using hist, .nil, rfl, by simp⟩
  | @cons t rs texts rss h1 _ ih =>
    obtain ⟨h0, hl⟩ := h1
    obtain ⟨c1, -, p1, -, -⟩ := load_listOf hist h0 hl (soundList_subset hs (by simp +contextual)) pr
    have hz : ∀ l ∈ Spec.lines t, 0 ∉ l := fun l hl h => h0 (mem_lines hl 0 h).1
    obtain ⟨gs, hreads, hload⟩ := loadedIn_lines E.bad hl hz (fun r hr => hs.wellFormed r (by simp [hr])) pr
    have h2 := History.parse hist h0 p1 hreads
    obtain ⟨c2, hs', p2, k1, k2, k3, k4⟩ := ih h2 (soundList_subset hs fun r hr => by
      rw [List.flatten_cons]; exact List.mem_append_right _ hr)
    refine ⟨c2, gs ++ hs', ?_, by rw [← List.append_assoc]; exact k1, hload.append k2, k3.trans (parse_tags p1), fun hsave f hf => ?_⟩
    · rw [List.foldlM_cons, p1]; exact p2
    · cases hsave with
      | cons s1 s2 =>
        rcases List.mem_append.1 hf with hf | hf
        · obtain ⟨gs', g1, g2⟩ := savable_reads E.bad hl hz (fun r hr => hs.wellFormed r (by simp [hr]))
            s1.texts s1.domains s1.regex (fun l hl => Nat.lt_of_le_of_lt (line_length hl) s1.size) pr
          rw [reads_unique hreads g1] at hf
          exact g2 f hf
        · exact k4 s2 f hf

theorem parses_run {E : Env} {texts : List Bytes} {pr : Bool} {c c' : Client E} (h : texts.foldlM (fun c text => c.parse text pr) c = .ok c') :
    ∃ as, run c (texts.map fun t => .parse t pr) = .ok (as, c') := by
  induction texts generalizing c with
  | nil => cases h; exact ⟨[], rfl⟩
  | cons t texts ih =>
    rw [List.foldlM_cons] at h
    obtain ⟨c1, h1, h⟩ := Res.bind_eq_ok.1 h
    obtain ⟨as, h2⟩ := ih h
    refine ⟨.done :: as, ?_⟩
    simp only [List.map_cons, run, step, h1, Res.map_ok, Res.bind_ok, h2]

theorem loadedBytes_parses (texts : List Bytes) (pr : Bool) :
    loadedBytes (texts.map fun t => .parse t pr) = (texts.map (·.length + 1)).sum := by
  have : ∀ n, (texts.map fun t => Op.parse t pr).foldl loadedAfter n = n + (texts.map (·.length + 1)).sum := by
    induction texts with
    | nil => intro n; rfl
    | cons t texts ih =>
      intro n
      rw [List.map_cons, List.foldl_cons, ih, List.map_cons, List.sum_cons]
      simp only [loadedAfter]
      omega
  unfold loadedBytes
  rw [this, Nat.zero_add]

theorem textsOf_nul {texts : List Bytes} {rss : List (List RuleText)} (ht : TextsOf texts rss) : ∀ t ∈ texts, 0 ∉ t := by
  unfold TextsOf at ht
  induction ht with
  | nil => simp
  | cons h _ ih =>
    intro t hm
    rcases List.mem_cons.1 hm with rfl | hm
    · exact h.1
    · exact ih t hm

/-- `matches` answers the questions in `A`, and blocks those in `B` -/
def Answering {E : Env} (c : Client E) (A B : Request → Prop) : Prop :=
  ∀ q : Request, q.Web → A q → E.fp.rolls q.url → ∃ o, c.query q.url q.context q.domain = .ok o ∧ (o.block = true ↔ B q)

/-- a client with these lists goes by their rules -/
theorem texts_goesBy {E : Env} {texts : List Bytes} {rss : List (List RuleText)} (ht : TextsOf texts rss)
    (hs : SoundList E.bad rss.flatten) {c : Client E} (hist : History E c []) (htag : c.tags = []) (pr : Bool) :
    ∃ c' gs, texts.foldlM (fun c text => c.parse text pr) c = .ok c' ∧ History E c' gs ∧ c'.tags = [] ∧ GoesBy c' rss.flatten ∧
      (Pointwise SavableList texts rss → ∀ f ∈ gs, LeftOut true true f ∨ Representable f) := by
  obtain ⟨c', gs, h1, h2, h3, h4, h5⟩ := load_each ht hist hs pr
  rw [List.nil_append] at h2
  refine ⟨c', gs, h1, h2, h4.trans htag, fun q hq hclear hroll => ?_, h5⟩
  have hin : InStep c' { rules := rss.flatten } gs := ⟨h2, h3.loadedAs, hs, by rw [h4, htag]; exact List.nodup_nil, by rw [h4, htag]; exact fun t => Iff.rfl⟩
  obtain ⟨o, ho, hv⟩ := inStep_matches hin hq hclear hroll
  exact ⟨o, ho, hv.blocked⟩

theorem texts_fit {E : Env} (hE : FixedBlooms E) (hm : ModerateBlooms E) {texts : List Bytes} {pr : Bool} {c : Client E}
    (h0 : ∀ t ∈ texts, 0 ∉ t) (h : texts.foldlM (fun c text => c.parse text pr) (Client.fresh E) = .ok c)
    (hl : (texts.map (·.length + 1)).sum ≤ 20000000) : Fits c := by
  obtain ⟨as, h1⟩ := parses_run h
  refine C67_fits hE hm (fun input pr' hp => ?_) h1 (by rw [loadedBytes_parses]; exact hl)
  obtain ⟨t, hm, e⟩ := List.mem_map.1 hp
  cases e
  exact h0 _ hm

/-- the data of a client that answers some questions -/
theorem saved_answering {E : Env} {c : Client E} {fs : List Filter} (hist : History E c fs) (hr : ∀ f ∈ fs, LeftOut true true f ∨ Representable f)
    (ht : c.tags = []) (hfit : Fits c) {A B : Request → Prop} (hg : Answering c A B) :
    ∃ s, c.serialize true true = .ok s ∧ ∀ d : Client E, d.tags = [] →
      ∃ d', d.deserialize s.buffer = .ok (some d') ∧ d'.tags = [] ∧ Answering d' A B := by
  obtain ⟨s, e, hd⟩ := C37_round_trip_partial hist hr hfit.1
  refine ⟨s, e, fun d htd => ?_⟩
  obtain ⟨d', h1, h2, h3⟩ := hd (hfit.2 s e) d []
  rw [List.append_nil] at h1
  refine ⟨d', h1, h2.trans htd, fun q hq hclear hroll => ?_⟩
  obtain ⟨o, ho, hb⟩ := hg q hq hclear hroll
  obtain ⟨o', h4, h5⟩ := (h3 (by rw [ht, htd]; exact fun t => Iff.rfl) q.url q.context q.domain (web_url hq).2.2).1 o ho
  exact ⟨o', h4, by rw [h5.block]; exact hb⟩

/-! ### Data files -/

theorem file_answering {E : Env} {texts : List Bytes} {c : Client E} {gs : List Filter} (h0 : ∀ t ∈ texts, 0 ∉ t)
    (h1 : texts.foldlM (fun c text => c.parse text false) (Client.fresh E) = .ok c) (h2 : History E c gs) (h3 : c.tags = [])
    (h5 : ∀ f ∈ gs, LeftOut true true f ∨ Representable f) (hfit : Fits c) {A B : Request → Prop} (h4 : Answering c A B)
    {sites : List Request} (hq : ∀ q ∈ sites, q.Web ∧ A q ∧ E.fp.rolls q.url ∧ q.type = none ∧ q.domain = some bs%"slashdot.org") :
    ∃ r, generateDataFile E texts (sites.map Request.url) = .ok r ∧ ∃ d : Client E, makeClientFromData E r.data = .ok (some d) ∧ Answering d A B := by
  obtain ⟨r, hr⟩ := C63_file_is_written (sites := sites.map Request.url) h1 h0 (fun site hsite => by
    obtain ⟨q, hmem, rfl⟩ := List.mem_map.1 hsite
    obtain ⟨w, hc, roll, t, d⟩ := hq q hmem
    obtain ⟨o, ho, -⟩ := h4 q w hc roll
    rw [d, show q.context = 0 by unfold Request.context; rw [t]] at ho
    exact ⟨o, ho⟩)
  refine ⟨r, hr, ?_⟩
  obtain ⟨c', s, e1, e2, e3⟩ := C63_sites_do_not_matter hr
  rw [show makeClientFromStrings E false texts = .ok c from h1] at e1
  cases e1
  obtain ⟨s', e4, hd⟩ := saved_answering h2 h5 h3 hfit h4
  rw [e2] at e4
  cases e4
  obtain ⟨d, k1, -, k2⟩ := hd (Client.fresh E) rfl
  exact ⟨d, by rw [e3]; exact k1, k2⟩

/-- **C63** from the text of the rules, with the restrictions of C66: a file is made of the texts, and a client
made from it answers every request as the rules in the texts say. -/
theorem C63_text_partial (E : Env) (hE : FixedBlooms E) (hm : ModerateBlooms E) {texts : List Bytes} {rss : List (List RuleText)}
    (ht : TextsOf texts rss) (hs : SoundList E.bad rss.flatten) (hsave : SavableTexts texts rss)
    {sites : List Request} (hq : ∀ q ∈ sites, q.Web ∧ Clear E.bad rss.flatten q ∧ E.fp.rolls q.url ∧ q.type = none ∧ q.domain = some bs%"slashdot.org") :
    ∃ r, generateDataFile E texts (sites.map Request.url) = .ok r ∧ ServesAs E r.data rss.flatten := by
  obtain ⟨c, gs, h1, h2, h3, h4, h5⟩ := texts_goesBy ht hs (.new (E := E)) rfl false
  have h0 := textsOf_nul ht
  exact file_answering h0 h1 h2 h3 (h5 hsave.1) (texts_fit hE hm h0 h1 hsave.2) h4 hq

/-! ### main.cc -/

theorem sampleTexts_iff {readFile : Bytes → Option Bytes} {t : SampleTexts} : sampleTexts readFile = some t ↔ FilesAre readFile t := by
  constructor
  · intro h
    unfold sampleTexts at h
    obtain ⟨a, h1, h⟩ := Option.bind_eq_some_iff.1 h
    obtain ⟨b, h2, h⟩ := Option.bind_eq_some_iff.1 h
    obtain ⟨c, h3, h⟩ := Option.bind_eq_some_iff.1 h
    obtain ⟨d, h4, h⟩ := Option.bind_eq_some_iff.1 h
    obtain ⟨e, h5, h⟩ := Option.bind_eq_some_iff.1 h
    obtain ⟨f, h6, h⟩ := Option.bind_eq_some_iff.1 h
    cases h
    exact ⟨h1, h2, h3, h4, h5, h6⟩
  · intro h
    unfold sampleTexts
    rw [h.1, h.2, h.3, h.4, h.5, h.6]
    rfl

/-- **C73**: the programs end with an exception exactly if a file cannot be read. -/
theorem C73_no_file (E : Env) (readFile : Bytes → Option Bytes) :
    (sampleMain E readFile = none ↔ ¬ ∃ t, FilesAre readFile t) ∧
    (perfMain E readFile = none ↔ ¬ ((∃ t, FilesAre readFile t) ∧ ∃ s, readFile bs%"./test/data/sitelist.txt" = some s)) := by
  simp only [← sampleTexts_iff]
  unfold sampleMain perfMain
  cases sampleTexts readFile with
  | none => simp
  | some t =>
    cases readFile bs%"./test/data/sitelist.txt" <;> simp

theorem adRequests_ok : adRequests.map Request.url = adUrls ∧ malwareRequests.map Request.url = malwareUrls := by decide +kernel

theorem sample_web {q : Request} (h : q ∈ adRequests ++ malwareRequests) : q.Web ∧ q.type = none ∧ q.domain = some bs%"slashdot.org" := by
  have key : ∀ q ∈ adRequests ++ malwareRequests, q.scheme.map lower ∈ [bs%"http", bs%"https", bs%"ws", bs%"wss"] ∧
      (q.host ≠ [] ∧ ∀ c ∈ q.host, ¬ IsSep c) ∧ (q.rest = [] ∨ q.rest.head? = some ch%'/') ∧ (0 ∉ q.host ∧ 0 ∉ q.rest) ∧ q.type = none ∧
      q.domain = some bs%"slashdot.org" := by decide +kernel
  obtain ⟨h1, h2, h3, h4, h5, h6⟩ := key q h
  refine ⟨⟨h1, h2, h3.imp_right fun h => ?_, h4, fun t ht => by rw [h5] at ht; cases ht⟩, h5, h6⟩
  cases hr : q.rest with
  | nil => rw [hr] at h; cases h
  | cons c r => rw [hr] at h; cases h; exact ⟨_, _, rfl, by decide⟩

theorem pointwise_answers {E : Env} {c : Client E} {page : Bytes} {m : Mask} {P : Request → Prop} {qs : List Request} {bs : List Bool}
    (h : Pointwise (Judges c m page) (qs.map Request.url) bs) (hb : ∀ q ∈ qs, ∃ o, c.query q.url m (some page) = .ok o ∧ (o.block = true ↔ P q)) :
    Pointwise (fun q b => b = true ↔ P q) qs bs := by
  induction qs generalizing bs with
  | nil => cases h; exact .nil
  | cons q qs ih =>
    rw [List.map_cons] at h
    cases h with
    | cons hj h =>
      obtain ⟨o, ho, hP⟩ := hb q (by simp)
      obtain ⟨o', ho', rfl⟩ := hj
      rw [ho] at ho'
      cases ho'
      exact .cons hP (ih h fun q hq => hb q (by simp [hq]))

theorem checked_answering {E : Env} {c : Client E} {gs : List Filter} (h2 : History E c gs) (h3 : c.tags = [])
    (h5 : ∀ f ∈ gs, LeftOut true true f ∨ Representable f) (hfit : Fits c) {A B : Request → Prop} (h4 : Answering c A B)
    {qs : List Request} (hq : ∀ q ∈ qs, q ∈ adRequests ++ malwareRequests ∧ A q ∧ E.fp.rolls q.url) :
    ∃ r, c.checkForClient (qs.map Request.url) = .ok r ∧
      Pointwise (fun q b => b = true ↔ B q) qs r.first ∧ r.second = some r.first ∧
        ∃ d : Client E, makeClientFromData E r.data = .ok (some d) ∧ Answering d A B := by
  have each : ∀ q ∈ qs, ∃ o, c.query q.url 0 (some bs%"slashdot.org") = .ok o ∧ (o.block = true ↔ B q) := by
    intro q hmem
    obtain ⟨w, t, d⟩ := sample_web (hq q hmem).1
    obtain ⟨o, ho, hb⟩ := h4 q w (hq q hmem).2.1 (hq q hmem).2.2
    rw [d, show q.context = 0 by unfold Request.context; rw [t]] at ho
    exact ⟨o, ho, hb⟩
  obtain ⟨r, e1, e2, e3, s, e4, e5⟩ := C63_sample_partial h2 h5 h3 hfit (urls := qs.map Request.url) fun url hu => by
    obtain ⟨q, hmem, rfl⟩ := List.mem_map.1 hu
    obtain ⟨o, ho, -⟩ := each q hmem
    exact ⟨(web_url (sample_web (hq q hmem).1).1).2.2, o, ho⟩
  obtain ⟨s', e6, hd⟩ := saved_answering h2 h5 h3 hfit h4
  rw [e4] at e6
  cases e6
  obtain ⟨d, k1, -, k2⟩ := hd (Client.fresh E) rfl
  exact ⟨r, e1, pointwise_answers e2 each, e3, d, by rw [e5]; exact k1, k2⟩

theorem checked_texts (E : Env) (hE : FixedBlooms E) (hm : ModerateBlooms E) {texts : List Bytes} {rss : List (List RuleText)}
    (ht : TextsOf texts rss) (hs : SoundList E.bad rss.flatten) (hsave : SavableTexts texts rss)
    {qs : List Request} (hq : ∀ q ∈ qs, q ∈ adRequests ++ malwareRequests ∧ Clear E.bad rss.flatten q ∧ E.fp.rolls q.url) :
    ∃ c r, (Client.fresh E).parseAll texts = .ok c ∧ c.checkForClient (qs.map Request.url) = .ok r ∧
      Pointwise (fun q b => b = true ↔ Blocked rss.flatten q) qs r.first ∧ r.second = some r.first ∧ ServesAs E r.data rss.flatten := by
  obtain ⟨c, gs, h1, h2, h3, h4, h5⟩ := texts_goesBy ht hs (.new (E := E)) rfl false
  obtain ⟨r, e⟩ := checked_answering h2 h3 (h5 hsave.1) (texts_fit hE hm (textsOf_nul ht) h1 hsave.2) h4 hq
  exact ⟨c, r, h1, e⟩

theorem sampleMain_ok {E : Env} {readFile : Bytes → Option Bytes} {t : SampleTexts} (hf : FilesAre readFile t) {c c' : Client E}
    {a m : Checked} (h1 : (Client.fresh E).parseAll (adTexts t) = .ok c) (h2 : c.checkForClient (adRequests.map Request.url) = .ok a)
    (h1' : (Client.fresh E).parseAll (malwareTexts t) = .ok c') (h2' : c'.checkForClient (malwareRequests.map Request.url) = .ok m) :
    sampleMain E readFile = some (.ok (a, m)) := by
  rw [adRequests_ok.1] at h2
  rw [adRequests_ok.2] at h2'
  unfold sampleMain
  rw [sampleTexts_iff.2 hf]
  show some (do
    let adBlockClient ← (Client.fresh E).parseAll (adTexts t)
    let ads ← adBlockClient.checkForClient adUrls
    let malwareClient ← (Client.fresh E).parseAll (malwareTexts t)
    let malware ← malwareClient.checkForClient malwareUrls
    pure (ads, malware)) = _
  rw [h1, Res.bind_ok, h2, Res.bind_ok, h1', Res.bind_ok, h2', Res.bind_ok]
  rfl

/-- **C73** for the sample program, with the restrictions of C66 on the lists: for each of its requests it
prints twice whether it is to be blocked by the lists about advertising (or malware, respectively), and the files it
writes serve for clients that go by these lists. -/
theorem C73_sample_partial (E : Env) (hE : FixedBlooms E) (hm : ModerateBlooms E) {readFile : Bytes → Option Bytes} {t : SampleTexts}
    (hf : FilesAre readFile t) {ads malware : List (List RuleText)}
    (ht : TextsOf (adTexts t) ads) (hs : SoundList E.bad ads.flatten) (hsave : SavableTexts (adTexts t) ads)
    (ht' : TextsOf (malwareTexts t) malware) (hs' : SoundList E.bad malware.flatten) (hsave' : SavableTexts (malwareTexts t) malware)
    (hc : ∀ q ∈ adRequests, Clear E.bad ads.flatten q) (hc' : ∀ q ∈ malwareRequests, Clear E.bad malware.flatten q)
    (hroll : ∀ q ∈ adRequests ++ malwareRequests, E.fp.rolls q.url) :
    ∃ a m, sampleMain E readFile = some (.ok (a, m)) ∧
      (Pointwise (fun q b => b = true ↔ Blocked ads.flatten q) adRequests a.first ∧ a.second = some a.first ∧ ServesAs E a.data ads.flatten) ∧
      Pointwise (fun q b => b = true ↔ Blocked malware.flatten q) malwareRequests m.first ∧ m.second = some m.first ∧
        ServesAs E m.data malware.flatten := by
  obtain ⟨c, a, h1, h2, h3⟩ := checked_texts E hE hm ht hs hsave (qs := adRequests) fun q h =>
    have h' := List.mem_append_left malwareRequests h; ⟨h', hc q h, hroll q h'⟩
  obtain ⟨c', m, h1', h2', h3'⟩ := checked_texts E hE hm ht' hs' hsave' (qs := malwareRequests) fun q h =>
    have h' := List.mem_append_right adRequests h; ⟨h', hc' q h, hroll q h'⟩
  exact ⟨a, m, sampleMain_ok hf h1 h2 h1' h2', h3, h3'⟩

/-! ### perf.cc -/

theorem askAll_run {E : Env} {sites : List Bytes} {c c' : Client E} {option : Mask} {page : Bytes} {bs : List Bool}
    (h : c.askAll option page sites = .ok (bs, c')) :
    ∃ as, run c (sites.map fun s => .matches s option (some page)) = .ok (as, c') := by
  induction sites generalizing c bs with
  | nil => cases h; exact ⟨[], rfl⟩
  | cons site sites ih =>
    simp only [Client.askAll] at h
    obtain ⟨⟨b, c1⟩, h1, h⟩ := Res.bind_eq_ok.1 h
    obtain ⟨⟨bs1, c2⟩, h2, h⟩ := Res.bind_eq_ok.1 h
    cases h
    obtain ⟨as, h3⟩ := ih h2
    obtain ⟨o, e1, rfl, rfl⟩ := nodeMatches_ok h1
    rw [List.map_cons]
    simp only [run, step, e1, Res.map_ok, Res.bind_ok, h3]
    exact ⟨_, rfl⟩

/-- the list of sites has these requests -/
theorem siteList_counts {E : Env} {c : Client E} {A B : Request → Prop} (hg : Answering c A B) {siteList : Bytes} {qs : List Request}
    (hw : WordsOf siteList (qs.map Request.url))
    (hq : ∀ q ∈ qs, q.Web ∧ A q ∧ E.fp.rolls q.url ∧ q.type = none ∧ q.domain = some bs%"brianbondy.com") :
    ∃ n c', c.doSiteList siteList = .ok (n, c') ∧ n.matching = howMany B qs ∧ n.skipped = howMany (fun q => ¬ B q) qs ∧
      Alike c c' ∧ ∃ as, run c (qs.map fun q => .matches q.url 0 (some bs%"brianbondy.com")) = .ok (as, c') := by
  have each : ∀ q ∈ qs, ∃ o, c.query q.url 0 (some bs%"brianbondy.com") = .ok o ∧ (o.block = true ↔ B q) := by
    intro q hmem
    obtain ⟨w, hc, roll, t, d⟩ := hq q hmem
    obtain ⟨o, ho, hb⟩ := hg q w hc roll
    rw [d, show q.context = 0 by unfold Request.context; rw [t]] at ho
    exact ⟨o, ho, hb⟩
  obtain ⟨bs, c', h3⟩ := askAll_total (sites := qs.map Request.url) (c := c) (option := 0) (page := bs%"brianbondy.com") fun site hsite => by
    obtain ⟨q, hmem, rfl⟩ := List.mem_map.1 hsite
    obtain ⟨o, ho, -⟩ := each q hmem
    exact ⟨_, o, ho, rfl⟩
  obtain ⟨n, h4⟩ := checkList_of_askAll h3 {}
  obtain ⟨bs', h5, h6⟩ := checkList_counts h4
  rw [h3] at h5
  cases h5
  obtain ⟨ha, hj, -⟩ := askAll_ok h3
  obtain ⟨k1, k2⟩ := pointwise_judged hj each
  obtain ⟨as, h7⟩ := askAll_run h3
  rw [List.map_map] at h7
  refine ⟨n, c', ?_, ?_, ?_, ha, as, h7⟩
  · unfold Client.doSiteList
    rw [(C73_words _ _).2 hw]
    exact h4
  · rw [h6]; simpa using k1
  · rw [h6]; simpa using k2

theorem clear_subset {bad : List Bytes} {rs rs' : List RuleText} {q : Request} (h : Clear bad rs q) (hsub : ∀ r ∈ rs', r ∈ rs) :
    Clear bad rs' q where
  inBounds r hr := h.inBounds r (hsub r hr)
  hosts r hr := h.hosts r (hsub r hr)
  different r hr r' hr' := h.different r (hsub r hr) r' (hsub r' hr')
  excluded d hd r hr := h.excluded d hd r (hsub r hr)
  noPage hd r hr := h.noPage hd r (hsub r hr)

theorem textsOf_append {texts texts' : List Bytes} {rss rss' : List (List RuleText)} (h : TextsOf texts rss) (h' : TextsOf texts' rss') :
    TextsOf (texts ++ texts') (rss ++ rss') := by
  unfold TextsOf at *
  induction h with
  | nil => exact h'
  | cons h _ ih => exact .cons h ih

theorem perfMain_ok {E : Env} {readFile : Bytes → Option Bytes} {t : SampleTexts}
    (hf : FilesAre readFile t) {siteList : Bytes} (hl : readFile bs%"./test/data/sitelist.txt" = some siteList)
    {qs : List Request} (hw : WordsOf siteList (qs.map Request.url)) {A B A' B' A'' B'' : Request → Prop}
    (hq : ∀ q ∈ qs, q.Web ∧ (A q ∧ A' q ∧ A'' q) ∧ E.fp.rolls q.url ∧ q.type = none ∧ q.domain = some bs%"brianbondy.com")
    {c m e : Client E} {gs : List Filter}
    (a1 : (Client.fresh E).parseAll t.ads = .ok c) (a2 : History E c gs) (a3 : c.tags = []) (a5 : ∀ f ∈ gs, LeftOut true true f ∨ Representable f)
    (hfit : Fits c) (a4 : Answering c A B)
    (b1 : (Client.fresh E).parseAll t.malware = .ok m) (b4 : Answering m A' B')
    (c1 : (Client.fresh E).enableBadFingerprintDetection.parseAll (t.ads ++ t.malware) = .ok e) (c4 : Answering e A'' B'') :
    ∃ r, perfMain E readFile = some (.ok (some r)) ∧
      (r.adBlock.matching = howMany B qs ∧ r.adBlock.skipped = howMany (fun q => ¬ B q) qs) ∧
      (r.safeBrowsing.matching = howMany B' qs ∧ r.safeBrowsing.skipped = howMany (fun q => ¬ B' q) qs) ∧
      ((∀ w ∈ E.bad, LiteralText w) → (∀ q ∈ qs, LiteralText q.url) → ∃ l, firstArray r.header = some l ∧ l.Nodup ∧
        (∀ w ∈ E.bad, w ∈ l) ∧ ∀ w ∈ l, w ∈ E.bad ∨ w.length = 6 ∧ ∃ q ∈ qs, w <:+: q.url) := by
  obtain ⟨s, a6, hd⟩ := saved_answering a2 a5 a3 hfit a4
  obtain ⟨d, a7, -, a8⟩ := hd c a3
  obtain ⟨n, d', a9, a10, a11, -⟩ := siteList_counts a8 hw fun q h => ⟨(hq q h).1, (hq q h).2.1.1, (hq q h).2.2⟩
  obtain ⟨n', m', b5, b6, b7, -⟩ := siteList_counts b4 hw fun q h => ⟨(hq q h).1, (hq q h).2.1.2.1, (hq q h).2.2⟩
  obtain ⟨n'', e', c5, -, -, -, as2, c6⟩ := siteList_counts c4 hw fun q h => ⟨(hq q h).1, (hq q h).2.1.2.2, (hq q h).2.2⟩
  obtain ⟨as1, c7⟩ := parses_run c1
  have hrun : run (Client.fresh E) (.enableBadFingerprintDetection :: ((t.ads ++ t.malware).map (fun x => .parse x false) ++
      qs.map fun q => .matches q.url 0 (some bs%"brianbondy.com"))) = .ok (.done :: (as1 ++ as2), e') := by
    simp only [run, step, Res.bind_ok, run_append, c7, c6]
  have hclear : Op.clear ∉ (t.ads ++ t.malware).map (fun x => Op.parse x false) ++
      qs.map fun q => .matches q.url 0 (some bs%"brianbondy.com") := by
    intro h
    rcases List.mem_append.1 h with h | h
    · obtain ⟨_, _, h⟩ := List.mem_map.1 h; cases h
    · obtain ⟨_, _, h⟩ := List.mem_map.1 h; cases h
  have hquery : ∀ url ctx dom, Op.matches url ctx dom ∈ Op.enableBadFingerprintDetection ::
      ((t.ads ++ t.malware).map (fun x => Op.parse x false) ++ qs.map fun q => .matches q.url 0 (some bs%"brianbondy.com")) →
      ∃ q ∈ qs, q.url = url := by
    intro url ctx dom h
    rcases List.mem_cons.1 h with h | h
    · cases h
    rcases List.mem_append.1 h with h | h
    · obtain ⟨_, _, h⟩ := List.mem_map.1 h; cases h
    · obtain ⟨q, hmem, h⟩ := List.mem_map.1 h; cases h; exact ⟨q, hmem, rfl⟩
  obtain ⟨a, as', c0, _, k1, k2⟩ := run_cons_ok hrun
  cases k1
  obtain ⟨l', hbad⟩ := C54_kept k2 hclear (l := E.bad.foldl (fun l w => if l.contains w then l else l ++ [w]) []) rfl
  generalize hl' : E.bad.foldl (fun l w => if l.contains w then l else l ++ [w]) [] ++ l' = l at hbad
  refine ⟨⟨n, d'.stats, n', m'.stats, badFingerprintsHeader l⟩, ?_, ⟨a10, a11⟩, ⟨b6, b7⟩, fun hlit hurl => ?_⟩
  · have hh : e'.generateBadFingerprintsHeader = .ok (badFingerprintsHeader l) := by
      unfold Client.generateBadFingerprintsHeader; rw [hbad]; rfl
    unfold perfMain
    rw [sampleTexts_iff.2 hf, hl]
    simp only [Option.bind_eq_bind, Option.bind_some, a1, Res.bind_ok, a6, a7, a9, b1, b5, c1, c5, hh]
    rfl
  · obtain ⟨text, g1, g2, g3, -⟩ := C65_regenerated_partial hrun hbad hlit fun url ctx dom h => by
      obtain ⟨q, hmem, rfl⟩ := hquery url ctx dom h
      exact hurl q hmem
    obtain ⟨o1, o2⟩ := C54_origin hrun hbad
    have : text = badFingerprintsHeader l := by
      unfold Client.generateBadFingerprintsHeader at g1
      rw [hbad] at g1
      cases g1
      rfl
    subst this
    refine ⟨l, g2, o1, g3, fun w hw => (o2 w hw).imp_right fun ⟨h6, url, ctx, dom, h, hin⟩ => ?_⟩
    obtain ⟨q, hmem, rfl⟩ := hquery url ctx dom h
    exact ⟨h6, q, hmem, hin⟩

/-- **C73** for the benchmark, with the restrictions of C66 on the lists: it tells how many of the addresses in the list
of sites are to be blocked by the lists about advertising, and how many are not (although the client
saves its rules and loads them again before), and the same for the lists about malware.  If the addresses have no quotes
and backslashes, a compiler reads in the header which it writes the built-in bad fingerprints, and others of six bytes from
the addresses, none twice. -/
theorem C73_perf_partial (E : Env) (hE : FixedBlooms E) (hm : ModerateBlooms E) {readFile : Bytes → Option Bytes} {t : SampleTexts}
    (hf : FilesAre readFile t) {siteList : Bytes} (hl : readFile bs%"./test/data/sitelist.txt" = some siteList)
    {qs : List Request} (hw : WordsOf siteList (qs.map Request.url))
    {ads malware : List (List RuleText)}
    (hq : ∀ q ∈ qs, q.Web ∧ Clear E.bad (ads ++ malware).flatten q ∧ E.fp.rolls q.url ∧ q.type = none ∧ q.domain = some bs%"brianbondy.com")
    (ht : TextsOf (adTexts t) ads) (hsave : SavableTexts (adTexts t) ads) (ht' : TextsOf (malwareTexts t) malware)
    (hs : SoundList E.bad (ads ++ malware).flatten) :
    ∃ r, perfMain E readFile = some (.ok (some r)) ∧
      (r.adBlock.matching = howMany (Blocked ads.flatten) qs ∧ r.adBlock.skipped = howMany (fun q => ¬ Blocked ads.flatten q) qs) ∧
      (r.safeBrowsing.matching = howMany (Blocked malware.flatten) qs ∧
        r.safeBrowsing.skipped = howMany (fun q => ¬ Blocked malware.flatten q) qs) ∧
      ((∀ w ∈ E.bad, LiteralText w) → (∀ q ∈ qs, LiteralText q.url) → ∃ l, firstArray r.header = some l ∧ l.Nodup ∧
        (∀ w ∈ E.bad, w ∈ l) ∧ ∀ w ∈ l, w ∈ E.bad ∨ w.length = 6 ∧ ∃ q ∈ qs, w <:+: q.url) := by
  rw [show adTexts t = t.ads from rfl] at ht hsave
  rw [show malwareTexts t = t.malware from rfl] at ht'
  have subA : ∀ r ∈ ads.flatten, r ∈ (ads ++ malware).flatten := fun r hr => by
    rw [List.flatten_append]; exact List.mem_append_left _ hr
  have subM : ∀ r ∈ malware.flatten, r ∈ (ads ++ malware).flatten := fun r hr => by
    rw [List.flatten_append]; exact List.mem_append_right _ hr
  have hsA := soundList_subset hs subA
  have hsM := soundList_subset hs subM
  obtain ⟨c, gs, a1, a2, a3, a4, a5⟩ := texts_goesBy ht hsA (.new (E := E)) rfl false
  obtain ⟨m, gs', b1, b2, b3, b4, -⟩ := texts_goesBy ht' hsM (.new (E := E)) rfl false
  obtain ⟨e, gs'', c1, c2, c3, c4, -⟩ := texts_goesBy (textsOf_append ht ht') hs
    (History.enableBadFingerprintDetection (.new (E := E))) rfl false
  exact perfMain_ok hf hl hw (fun q h => ⟨(hq q h).1, ⟨clear_subset (hq q h).2.1 subA, clear_subset (hq q h).2.1 subM, (hq q h).2.1⟩, (hq q h).2.2⟩)
    a1 a2 a3 (a5 hsave.1) (texts_fit hE hm (textsOf_nul ht) a1 hsave.2) a4 b1 b4 c1 c4

/-- **C73** fails, like C21, for a list that begins with a certain line: both programs read out of bounds. -/
theorem C73_broken_list_counterexample (E : Env) {readFile : Bytes → Option Bytes} {t : SampleTexts} (hf : FilesAre readFile t)
    {siteList : Bytes} (hl : readFile bs%"./test/data/sitelist.txt" = some siteList) (h : t.easyList = bs%"||exa|mple.com") :
    sampleMain E readFile = some (.ub .oobRead) ∧ perfMain E readFile = some (.ub .oobRead) := by
  have key : (Client.fresh E).parseAll t.ads = .ub .oobRead := by
    unfold Client.parseAll SampleTexts.ads
    rw [List.foldlM_cons, h, C21_counterexample_bar_in_host]
    rfl
  unfold sampleMain perfMain
  rw [sampleTexts_iff.2 hf, hl]
  simp only [Option.bind_eq_bind, Option.bind_some, key]
  exact ⟨rfl, rfl⟩

/-! ### An example -/

private def exTexts : SampleTexts where
  easyList := bs%"! advertising\n||googlesyndication.com^\n"
  easyPrivacy := []
  ublockUnbreak := []
  braveUnbreak := bs%"@@||tpc.googlesyndication.com/safeframe/\n"
  spam404 := bs%"||freexblcode.com^\n"
  disconnectMalware := []

private def exAds : List (List RuleText) :=
  [[{ anchor := .host, text := bs%"googlesyndication.com^" }], [], [],
    [{ exception := true, anchor := .host, text := bs%"tpc.googlesyndication.com/safeframe/" }]]

private def exMalware : List (List RuleText) := [[{ anchor := .host, text := bs%"freexblcode.com^" }], []]

private def exAll : List RuleText := (exAds ++ exMalware).flatten

private theorem exAds_texts : TextsOf (adTexts exTexts) exAds := by
  have empty : ListOf [[]] [] := .idle (.inl ⟨by decide, by simp⟩) .nil
  refine .cons ⟨by decide +kernel, ?_⟩ (.cons ⟨by decide, empty⟩ (.cons ⟨by decide, empty⟩ (.cons ⟨by decide +kernel, ?_⟩ .nil)))
  · rw [show Spec.lines exTexts.easyList = [bs%"! advertising",
      ({ anchor := .host, text := bs%"googlesyndication.com^" } : RuleText).line, []] by decide +kernel]
    exact .idle (.inr ⟨[], _, by simp, by decide, .inl rfl⟩) (.rule _ empty)
  · rw [show Spec.lines exTexts.braveUnbreak = [({ exception := true, anchor := .host, text := bs%"tpc.googlesyndication.com/safeframe/" } :
      RuleText).line, []] by decide +kernel]
    exact .rule _ empty

private theorem exMalware_texts : TextsOf (malwareTexts exTexts) exMalware := by
  have empty : ListOf [[]] [] := .idle (.inl ⟨by decide, by simp⟩) .nil
  refine .cons ⟨by decide +kernel, ?_⟩ (.cons ⟨by decide, empty⟩ .nil)
  rw [show Spec.lines exTexts.spam404 = [({ anchor := .host, text := bs%"freexblcode.com^" } : RuleText).line, []] by decide +kernel]
  exact .rule _ empty

private theorem exAll_sound {bad : List Bytes} : SoundList bad exAll where
  wellFormed r hr := RuleText.wellFormed ((by decide +kernel : ∀ r ∈ exAll, r.ok = true) r hr)
  fits r hr := fits_of_entries ((by decide +kernel : ∀ r ∈ exAll, ∀ o ∈ r.entries, o.length ≤ 1024) r hr)

private theorem exAll_clear (bad : List Bytes) (q : Request) : Clear bad exAll q := by
  apply clear_of
  case carets =>
    intro r hr
    have h := safeRule_ok ((by decide +kernel : ∀ r ∈ exAll, safeRule (r.filter false) = true) r hr)
    exact (h r.text (filter_hasText (RuleText.wellFormed ((by decide +kernel : ∀ r ∈ exAll, r.ok = true) r hr)) false)).1
  case hosts => decide +kernel
  case bars => decide +kernel
  case different =>
    intro r hr r' hr' _ _ _ hp
    simp only [exAll, exAds, exMalware, List.cons_append, List.nil_append, List.flatten_cons, List.flatten_nil, List.append_nil,
      List.mem_cons, List.not_mem_nil, or_false] at hr hr'
    rcases hr with rfl | rfl | rfl <;> rcases hr' with rfl | rfl | rfl <;>
      first | rfl | exact absurd hp (by decide +kernel)
  case domains =>
    intro r hr dl hdl
    exact absurd hdl (by rw [(by decide +kernel : ∀ r ∈ exAll, r.value bs%"domain=" = none) r hr]; simp)

private theorem exSavable_texts : SavableTexts (adTexts exTexts) exAds ∧ SavableTexts (malwareTexts exTexts) exMalware := by
  have key : ∀ text rs, (∀ r ∈ rs, r ∈ exAll) → (∀ l ∈ [bs%"//", bs%" /", bs%"\t/"], l ∉ Spec.lines text) → text.length ≤ 1000 → SavableList text rs := by
    intro text rs h1 h2 h3
    refine ⟨fun r hr => (by decide +kernel : ∀ r ∈ exAll, r.text ≠ []) r (h1 r hr), fun r hr dl hdl => ?_, h2, Nat.lt_of_le_of_lt h3 (by decide)⟩
    exact absurd hdl (by rw [(by decide +kernel : ∀ r ∈ exAll, r.value bs%"domain=" = none) r (h1 r hr)]; simp)
  have nil : SavableList [] [] := key [] [] (by simp) (by decide +kernel) (by decide)
  constructor
  · refine ⟨.cons (key _ _ ?_ ?_ ?_) (.cons nil (.cons nil (.cons (key _ _ ?_ ?_ ?_) .nil))), Nat.le_trans (show _ ≤ 1000 by decide +kernel) (by decide)⟩
    · simp [exAll, exAds]
    · decide +kernel
    · decide +kernel
    · simp [exAll, exAds]
    · decide +kernel
    · decide +kernel
  · refine ⟨.cons (key _ _ ?_ ?_ ?_) (.cons nil .nil), Nat.le_trans (show _ ≤ 1000 by decide +kernel) (by decide)⟩
    · simp [exAll, exMalware]
    · decide +kernel
    · decide +kernel

private def exActs (q : Request) (r : RuleText) : Bool :=
  decide ((r.filter true).matches q.url (resolveContext q.url q.context q.domain) q.domain none = .ok true)

private def exBlocks (rs : List RuleText) (q : Request) : Bool :=
  rs.any (fun r => !r.exception && exActs q r) && !rs.any (fun r => r.exception && exActs q r)

private theorem exBlocks_iff {rs : List RuleText} (hrs : ∀ r ∈ rs, r ∈ exAll) {q : Request} (hq : q.Web) :
    exBlocks rs q = true ↔ Blocked rs q := by
  have hs := exAll_sound (bad := [])
  have key : ∀ r ∈ rs, r.AppliesTo [] q ↔ exActs q r = true := by
    intro r hr
    have hr := hrs r hr
    rw [← acts_iff (hs.wellFormed r hr) true hq ((exAll_clear [] q).inBounds r hr)]
    unfold Acts exActs
    rw [decide_eq_true_iff]
    exact ⟨And.left, fun h => ⟨h, .inl ((by decide +kernel : ∀ r ∈ exAll, (r.filter true).tag = []) r hr)⟩⟩
  unfold exBlocks Blocked
  simp only [Bool.and_eq_true, Bool.not_eq_true', List.any_eq_true, List.any_eq_false, not_exists, not_and]
  refine and_congr ⟨?_, ?_⟩ ⟨?_, ?_⟩
  · rintro ⟨r, hr, h1, h2⟩; exact ⟨r, hr, h1, (key r hr).2 h2⟩
  · rintro ⟨r, hr, h1, h2⟩; exact ⟨r, hr, h1, (key r hr).1 h2⟩
  · intro h r hr h1 h2; exact h r hr h1 ((key r hr).1 h2)
  · intro h r hr h1 h2; exact h r hr h1 ((key r hr).2 h2)

private theorem pointwise_blocks {rs : List RuleText} (hrs : ∀ r ∈ rs, r ∈ exAll) {qs : List Request} (hq : ∀ q ∈ qs, q.Web) {bs : List Bool}
    (h : Pointwise (fun q b => b = true ↔ Blocked rs q) qs bs) : bs = qs.map (exBlocks rs) := by
  induction h with
  | nil => rfl
  | @cons q b qs bs h _ ih =>
    rw [List.map_cons, ← ih fun q h => hq q (by simp [h])]
    rw [← exBlocks_iff hrs (hq q (by simp)), ← Bool.eq_iff_iff] at h
    rw [h]

private def exFiles (name : Bytes) : Option Bytes :=
  [ (bs%"./test/data/easylist.txt", exTexts.easyList), (bs%"./test/data/easyprivacy.txt", exTexts.easyPrivacy),
    (bs%"./test/data/ublock-unbreak.txt", exTexts.ublockUnbreak), (bs%"./test/data/brave-unbreak.txt", exTexts.braveUnbreak),
    (bs%"./test/data/spam404-main-blacklist.txt", exTexts.spam404),
    (bs%"./test/data/disconnect-simple-malware.txt", exTexts.disconnectMalware),
    (bs%"./test/data/sitelist.txt", bs%"http://pagead2.googlesyndication.com/x\nhttp://www.brianbondy.com\n") ].lookup name

private theorem exFiles_are : FilesAre exFiles exTexts := by
  constructor <;> decide +kernel

private theorem exAds_sub : (∀ r ∈ exAds.flatten, r ∈ exAll) ∧ ∀ r ∈ exMalware.flatten, r ∈ exAll := by
  constructor
  · intro r hr; unfold exAll; rw [List.flatten_append]; exact List.mem_append_left _ hr
  · intro r hr; unfold exAll; rw [List.flatten_append]; exact List.mem_append_right _ hr

/-- what the sample program prints, with these lists -/
example (E : Env) (hE : FixedBlooms E) (hm : ModerateBlooms E) (hroll : ∀ url, E.fp.rolls url) :
    ∃ a m, sampleMain E exFiles = some (.ok (a, m)) ∧ a.first = [true, false, false, false] ∧ a.second = some a.first ∧
      m.first = [true, false, false] ∧ m.second = some m.first := by
  obtain ⟨a, m, h1, ⟨h2, h3, -⟩, h4, h5, -⟩ := C73_sample_partial E hE hm exFiles_are exAds_texts
    (soundList_subset exAll_sound exAds_sub.1) exSavable_texts.1 exMalware_texts
    (soundList_subset exAll_sound exAds_sub.2) exSavable_texts.2
    (fun q _ => clear_subset (exAll_clear _ q) exAds_sub.1) (fun q _ => clear_subset (exAll_clear _ q) exAds_sub.2) fun q _ => hroll _
  refine ⟨a, m, h1, ?_, h3, ?_, h5⟩
  · rw [pointwise_blocks exAds_sub.1 (fun q h => (sample_web (List.mem_append_left _ h)).1) h2]; decide +kernel
  · rw [pointwise_blocks exAds_sub.2 (fun q h => (sample_web (List.mem_append_right _ h)).1) h4]; decide +kernel

private def exSites : List Request :=
  [ { host := bs%"pagead2.googlesyndication.com", rest := bs%"/x", domain := some bs%"brianbondy.com" },
    { host := bs%"www.brianbondy.com", domain := some bs%"brianbondy.com" } ]

private theorem exSites_web : ∀ q ∈ exSites, q.Web ∧ q.type = none ∧ q.domain = some bs%"brianbondy.com" := by
  intro q hq
  simp only [exSites, List.mem_cons, List.not_mem_nil, or_false] at hq
  rcases hq with rfl | rfl
  · exact ⟨⟨by decide +kernel, by decide +kernel, .inr ⟨_, _, rfl, by decide⟩, by decide +kernel, by rintro t ⟨⟩⟩, rfl, rfl⟩
  · exact ⟨⟨by decide +kernel, by decide +kernel, .inl rfl, by decide +kernel, by rintro t ⟨⟩⟩, rfl, rfl⟩

/-- what the benchmark prints, with these lists and two sites -/
example (E : Env) (hE : FixedBlooms E) (hm : ModerateBlooms E) (hroll : ∀ url, E.fp.rolls url) :
    ∃ r, perfMain E exFiles = some (.ok (some r)) ∧ r.adBlock = ⟨1, 1⟩ ∧ r.safeBrowsing = ⟨0, 2⟩ := by
  obtain ⟨r, h1, ⟨h2, h3⟩, ⟨h4, h5⟩, -⟩ := C73_perf_partial E hE hm exFiles_are
    (siteList := bs%"http://pagead2.googlesyndication.com/x\nhttp://www.brianbondy.com\n") (by decide +kernel) (qs := exSites)
    ((C73_words _ _).1 (by decide +kernel)) (fun q h => ⟨(exSites_web q h).1, exAll_clear _ q, hroll _, (exSites_web q h).2⟩)
    exAds_texts exSavable_texts.1 exMalware_texts exAll_sound
  have key : ∀ rs, (∀ r ∈ rs, r ∈ exAll) → howMany (Blocked rs) exSites = exSites.countP (exBlocks rs) ∧
      howMany (fun q => ¬ Blocked rs q) exSites = exSites.countP (fun q => !exBlocks rs q) := by
    intro rs hrs
    unfold howMany
    constructor
    · refine List.countP_congr fun q hq => ?_
      simp [exBlocks_iff hrs (exSites_web q hq).1]
    · refine List.countP_congr fun q hq => ?_
      simp [← exBlocks_iff hrs (exSites_web q hq).1]
  rw [(key _ exAds_sub.1).1] at h2
  rw [(key _ exAds_sub.1).2] at h3
  rw [(key _ exAds_sub.2).1] at h4
  rw [(key _ exAds_sub.2).2] at h5
  refine ⟨r, h1, ?_, ?_⟩
  · rw [show r.adBlock = ⟨r.adBlock.matching, r.adBlock.skipped⟩ from rfl, h2, h3]; decide +kernel
  · rw [show r.safeBrowsing = ⟨r.safeBrowsing.matching, r.safeBrowsing.skipped⟩ from rfl, h4, h5]; decide +kernel

/-- a data file of the four lists -/
example (E : Env) (hE : FixedBlooms E) (hm : ModerateBlooms E) : ∃ r, generateDataFile E (adTexts exTexts) [] = .ok r ∧ ServesAs E r.data exAds.flatten :=
  C63_text_partial E hE hm exAds_texts (soundList_subset exAll_sound exAds_sub.1) exSavable_texts.1 (sites := []) (by simp)

/-- there is such an environment -/
example : ∃ E : Env, FixedBlooms E ∧ ModerateBlooms E ∧ ∀ url, E.fp.rolls url := ⟨byteEnv, fun _ _ => rfl, byteEnv_moderate, fun _ => trivial⟩

end AdBlock
